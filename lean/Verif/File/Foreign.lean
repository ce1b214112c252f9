import Verif.File.ForeignSpec
import Verif.File.Read
import Verif.Data.Swap

/-! The conversion of events in the other byte order. -/

namespace Verif.File
open Verif.Buffer Verif.Event Verif.Sample Verif.Attr Verif.Names Verif.Text Verif.Util Verif.Meta Verif.Serial Verif.Data

theorem foreignImage_append (L M : List Piece) : foreignImage (L ++ M) = foreignImage L ++ foreignImage M := by simp [foreignImage]

theorem foreignBytes_length (p : Piece) : (foreignBytes p).length = p.len := by cases p <;> simp [foreignBytes, Piece.len]

theorem foreignImage_length : ∀ L : List Piece, (foreignImage L).length = total L
  | [] => rfl
  | p :: L => by
    rw [show foreignImage (p :: L) = foreignBytes p ++ foreignImage L from rfl, List.length_append, foreignBytes_length,
      foreignImage_length L, total_cons]

/-- The value of an integer whose bytes are taken in the wrong order. -/
def turn (n v : Nat) : Nat := leNat (toLE n v).reverse

theorem turn_lt (n v : Nat) : turn n v < 256 ^ n := by
  have := leNat_lt (toLE n v).reverse
  simpa [turn] using this

theorem toLE_turn (n v : Nat) : toLE n (turn n v) = (toLE n v).reverse := by
  unfold turn
  have := toLE_leNat (toLE n v).reverse
  simpa using this

/-- A field whose integers have been taken in the wrong order. -/
def flip : Piece → Piece
  | .u16 v => .u16 (turn 2 v)
  | .u32 v => .u32 (turn 4 v)
  | .u64 v => .u64 (turn 8 v)
  | p => p

theorem foreignBytes_flip (p : Piece) : foreignBytes p = pieceBytes (flip p) := by
  cases p <;> simp [foreignBytes, pieceBytes, flip, toLE_turn]

theorem foreignImage_flip (L : List Piece) : foreignImage L = Serial.image (L.map flip) := by
  induction L with
  | nil => rfl
  | cons p L ih =>
    rw [List.map_cons, Serial.image_cons, ← foreignBytes_flip, ← ih]; rfl

/-! ## Swapping -/

/-- The places of the integers among the fields. -/
def marks : Nat → List Piece → List (Nat × Nat)
  | _, [] => []
  | off, .u16 _ :: L => (off, 2) :: marks (off + 2) L
  | off, .u32 _ :: L => (off, 4) :: marks (off + 4) L
  | off, .u64 _ :: L => (off, 8) :: marks (off + 8) L
  | off, .bytes l :: L => marks (off + l.length) L
  | off, .pad n :: L => marks (off + n) L

theorem swap_one {t mi off n : Nat} {pre x post : Serial.Bytes} {l : List (Nat × Nat)} (ho : off = 8 + pre.length) (hn : n = x.length) :
    swapAll ((off, n) :: l) ⟨t, mi, pre ++ x.reverse ++ post⟩ = swapAll l ⟨t, mi, pre ++ x ++ post⟩ := by
  subst ho hn
  rw [swapAll, swapAt, if_pos (by simp [RawEvent.size]; omega)]
  simp only [Option.bind_some]
  have h1 : (pre ++ x.reverse ++ post).drop (pre.length + x.length) = post := List.drop_left' (by simp)
  rw [show 8 + pre.length - 8 = pre.length by omega, h1]
  simp

theorem swap_marks {t mi : Nat} : ∀ (L : List Piece) {pre post : Serial.Bytes} {off : Nat} {l : List (Nat × Nat)}, off = 8 + pre.length →
    swapAll (marks off L ++ l) ⟨t, mi, pre ++ foreignImage L ++ post⟩ = swapAll l ⟨t, mi, pre ++ Serial.image L ++ post⟩
  | [], pre, post, off, l, ho => rfl
  | p :: L, pre, post, off, l, ho => by
    rw [show foreignImage (p :: L) = foreignBytes p ++ foreignImage L from rfl, Serial.image_cons]
    have key : ∀ n v, swapAll ((off, n) :: (marks (off + n) L ++ l)) ⟨t, mi, pre ++ ((toLE n v).reverse ++ foreignImage L) ++ post⟩ =
        swapAll l ⟨t, mi, pre ++ (toLE n v ++ Serial.image L) ++ post⟩ := by
      intro n v
      have h1 := swap_one (t := t) (mi := mi) (off := off) (n := n) (pre := pre) (x := toLE n v) (post := foreignImage L ++ post)
        (l := marks (off + n) L ++ l) ho (by simp)
      have h2 := swap_marks (t := t) (mi := mi) L (pre := pre ++ toLE n v) (post := post) (off := off + n) (l := l) (by simp; omega)
      rw [show pre ++ ((toLE n v).reverse ++ foreignImage L) ++ post = pre ++ (toLE n v).reverse ++ (foreignImage L ++ post) by simp, h1,
        show pre ++ toLE n v ++ (foreignImage L ++ post) = pre ++ toLE n v ++ foreignImage L ++ post by simp, h2]
      simp
    cases p with
    | u16 v => exact key 2 v
    | u32 v => exact key 4 v
    | u64 v => exact key 8 v
    | bytes d =>
      have h2 := swap_marks (t := t) (mi := mi) L (pre := pre ++ d) (post := post) (off := off + d.length) (l := l) (by simp; omega)
      simpa [marks, foreignBytes, pieceBytes] using h2
    | pad n =>
      have h2 := swap_marks (t := t) (mi := mi) L (pre := pre ++ List.replicate n 0) (post := post) (off := off + n) (l := l) (by simp; omega)
      simpa [marks, foreignBytes, pieceBytes] using h2

theorem swap_all {t mi : Nat} {L : List Piece} {pre post : Serial.Bytes} {off : Nat} (ho : off = 8 + pre.length) :
    swapAll (marks off L) ⟨t, mi, pre ++ foreignImage L ++ post⟩ = some ⟨t, mi, pre ++ Serial.image L ++ post⟩ := by
  have := swap_marks (t := t) (mi := mi) L (pre := pre) (post := post) (l := []) ho
  rwa [List.append_nil] at this

theorem marks_append : ∀ (L M : List Piece) (off : Nat), marks off (L ++ M) = marks off L ++ marks (off + total L) M
  | [], M, off => by simp [marks, total]
  | p :: L, M, off => by
    cases p <;> simp only [List.cons_append, marks, marks_append L M, total_cons, Piece.len, Nat.add_assoc]

theorem marks_text (off : Nat) (s : Serial.Bytes) : marks off (text s) = [] := rfl
theorem marks_array (off n : Nat) (s : Serial.Bytes) : marks off (array n s) = [] := rfl

/-- The places of the integers in entries of the same form. -/
theorem marks_entries {α : Type} {g : α → List Piece} {sz : Nat} {h : Nat → List (Nat × Nat)} : ∀ (l : List α) (off : Nat),
    (∀ x ∈ l, total (g x) = sz ∧ ∀ o, marks o (g x) = h o) →
    marks off (l.flatMap g) = (List.range l.length).flatMap fun i => h (off + sz * i)
  | [], off, _ => rfl
  | a :: l, off, ha => by
    have h0 := ha a (by simp)
    rw [List.flatMap_cons, marks_append, h0.1, h0.2, marks_entries l _ fun x hx => ha x (by simp [hx]), List.length_cons,
      List.range_succ_eq_map, List.flatMap_cons, List.flatMap_map, Nat.mul_zero, Nat.add_zero]
    congr 1
    congr 1
    funext i
    congr 1
    rw [Nat.succ_eq_add_one, Nat.mul_add, Nat.mul_one]
    omega

/-! ## Decoding -/

theorem decode_once {ser : Ser} {fixed : Nat} {e e' : RawEvent} (h : swapFixed e = some (some e')) (h' : swapVariable e' = some (some e')) :
    decode ser true fixed e = decode ser false fixed e' := by
  unfold decode
  rw [if_pos rfl, h]
  simp only [if_true, h', Bool.false_eq_true, if_false]

/-- If all integers are in the part that is converted first. -/
theorem decode_plain {ser : Ser} {fixed t mi : Nat} {L : List Piece} {rest : Serial.Bytes}
    (hf : ∀ p, fixedFields ⟨t, mi, p⟩ = some (marks 8 L)) (hv : ∀ p, variableFields ⟨t, mi, p⟩ = some (some [])) :
    decode ser true fixed ⟨t, mi, foreignImage L ++ rest⟩ = decode ser false fixed ⟨t, mi, Serial.image L ++ rest⟩ := by
  have h : swapFixed ⟨t, mi, foreignImage L ++ rest⟩ = some (some ⟨t, mi, Serial.image L ++ rest⟩) := by
    unfold swapFixed
    rw [hf]
    simp only
    have := swap_all (t := t) (mi := mi) (L := L) (pre := []) (post := rest) (off := 8) rfl
    rw [List.nil_append, List.nil_append] at this
    rw [this]
    rfl
  have h' : swapVariable ⟨t, mi, Serial.image L ++ rest⟩ = some (some ⟨t, mi, Serial.image L ++ rest⟩) := by
    unfold swapVariable
    rw [hv]
    rfl
  exact decode_once h h'

theorem decode_fork {ser : Ser} {fixed t mi : Nat} {m : Fork} {rest : Serial.Bytes} (ht : t = FORK ∨ t = EXIT) :
    decode ser true fixed ⟨t, mi, foreignImage [.u32 m.pid, .u32 m.ppid, .u32 m.tid, .u32 m.ptid, .u64 m.time] ++ rest⟩ =
      decode ser false fixed ⟨t, mi, Serial.image [.u32 m.pid, .u32 m.ppid, .u32 m.tid, .u32 m.ptid, .u64 m.time] ++ rest⟩ := by
  refine decode_once ?_ ?_
  · have hf : ∀ p, fixedFields ⟨t, mi, p⟩ = some [(8, 4), (16, 4), (12, 4), (20, 4), (24, 8)] := by
      rcases ht with rfl | rfl <;> exact fun _ => rfl
    unfold swapFixed
    rw [hf]
    simp only
    simp only [foreignImage, Serial.image, List.flatMap_cons, List.flatMap_nil, List.append_nil, foreignBytes, pieceBytes]
    generalize ha : toLE 4 m.pid = a
    generalize hb : toLE 4 m.ppid = b
    generalize hc : toLE 4 m.tid = c
    generalize hd : toLE 4 m.ptid = d
    generalize he : toLE 8 m.time = e
    have la : a.length = 4 := by rw [← ha]; simp
    have lb : b.length = 4 := by rw [← hb]; simp
    have lc : c.length = 4 := by rw [← hc]; simp
    have ld : d.length = 4 := by rw [← hd]; simp
    have le : e.length = 8 := by rw [← he]; simp
    have s1 := swap_one (t := t) (mi := mi) (off := 8) (n := 4) (pre := []) (x := a)
      (post := b.reverse ++ (c.reverse ++ (d.reverse ++ (e.reverse ++ rest)))) (l := [(16, 4), (12, 4), (20, 4), (24, 8)]) rfl la.symm
    have s2 := swap_one (t := t) (mi := mi) (off := 16) (n := 4) (pre := a ++ b.reverse) (x := c)
      (post := d.reverse ++ (e.reverse ++ rest)) (l := [(12, 4), (20, 4), (24, 8)]) (by simp [la, lb]) lc.symm
    have s3 := swap_one (t := t) (mi := mi) (off := 12) (n := 4) (pre := a) (x := b)
      (post := c ++ (d.reverse ++ (e.reverse ++ rest))) (l := [(20, 4), (24, 8)]) (by simp [la]) lb.symm
    have s4 := swap_one (t := t) (mi := mi) (off := 20) (n := 4) (pre := a ++ (b ++ c)) (x := d)
      (post := e.reverse ++ rest) (l := [(24, 8)]) (by simp [la, lb, lc]) ld.symm
    have s5 := swap_one (t := t) (mi := mi) (off := 24) (n := 8) (pre := a ++ (b ++ (c ++ d))) (x := e)
      (post := rest) (l := []) (by simp [la, lb, lc, ld]) le.symm
    simp only [List.nil_append, List.append_assoc] at s1 s2 s3 s4 s5 ⊢
    rw [s1, s2, s3, s4, s5]
    rfl
  · unfold swapVariable
    rcases ht with rfl | rfl <;> rfl

/-- If other integers follow. -/
theorem decode_both {ser : Ser} {fixed t mi : Nat} {A B : List Piece} {rest : Serial.Bytes}
    (hf : ∀ p, fixedFields ⟨t, mi, p⟩ = some (marks 8 A))
    (hs : variablePayloadSize ⟨t, mi, Serial.image A ++ foreignImage B ++ rest⟩ (8 + total (A ++ B) + rest.length - fixed) =
      variablePayloadSize ⟨t, mi, Serial.image (A ++ B) ++ rest⟩ (8 + total (A ++ B) + rest.length - fixed))
    (hv : variableFields ⟨t, mi, Serial.image A ++ foreignImage B ++ rest⟩ = some (some (marks (8 + total A) B))) :
    decode ser true fixed ⟨t, mi, foreignImage (A ++ B) ++ rest⟩ = decode ser false fixed ⟨t, mi, Serial.image (A ++ B) ++ rest⟩ := by
  have h : swapFixed ⟨t, mi, foreignImage (A ++ B) ++ rest⟩ = some (some ⟨t, mi, Serial.image A ++ foreignImage B ++ rest⟩) := by
    unfold swapFixed
    rw [hf]
    simp only
    have := swap_all (t := t) (mi := mi) (L := A) (pre := []) (post := foreignImage B ++ rest) (off := 8) rfl
    rw [List.nil_append, List.nil_append] at this
    rw [foreignImage_append, List.append_assoc, this, List.append_assoc]
    rfl
  have h' : swapVariable ⟨t, mi, Serial.image A ++ foreignImage B ++ rest⟩ = some (some ⟨t, mi, Serial.image (A ++ B) ++ rest⟩) := by
    unfold swapVariable
    rw [hv]
    simp only
    rw [swap_all (by rw [Serial.image_length]), Serial.image_append]
    rfl
  have e1 : RawEvent.size ⟨t, mi, Serial.image A ++ foreignImage B ++ rest⟩ = 8 + total (A ++ B) + rest.length := by
    simp [RawEvent.size, Serial.image_length, foreignImage_length, total_append]; omega
  have e2 : RawEvent.size ⟨t, mi, Serial.image (A ++ B) ++ rest⟩ = 8 + total (A ++ B) + rest.length := by
    simp [RawEvent.size, Serial.image_length]; omega
  unfold decode
  rw [if_pos rfl, h]
  simp only [if_true, h', Bool.false_eq_true, if_false, e1, e2, hs]

/-- The size of an event's own fields is the one that the code computes. -/
theorem fixed_of {env : Serial.Env} {e : RawEvent} {misc fixed : Nat} {b : Body} {rest : Serial.Bytes} (hb : BodyOk env e.type misc b)
    (hp : e.payload = Serial.image (own e.type b) ++ rest) (hok : e.Ok) (hr : carriesSample e.type = false → rest = [])
    (hf : fixedPayloadSize e.type = some fixed) :
    fixed ≤ e.size ∧ fixed ≤ 8 + total (own e.type b) ∧
      variablePayloadSize e (e.size - fixed) = some (some (8 + total (own e.type b) - fixed)) := by
  have hd := dataSize_own hb hp hok hr
  unfold eventDataSize at hd
  rw [hf] at hd
  simp only at hd
  split at hd
  · simp only [Option.some.injEq] at hd; omega
  · rename_i hle
    cases hv : variablePayloadSize e (e.size - fixed) with
    | none => rw [hv] at hd; cases hd
    | some o =>
      rw [hv] at hd
      cases o with
      | none => simp only [Option.some.injEq] at hd; omega
      | some n =>
        simp only [Option.some.injEq] at hd
        refine ⟨by omega, by omega, ?_⟩
        congr 2
        omega

/-- The size of the variable part does not depend on the values of integers in it. -/
theorem decode_entries {env : Serial.Env} {ser : Ser} {fixed t mi : Nat} {b b' : Body} {A B : List Piece} {rest : Serial.Bytes}
    (hb : BodyOk env t mi b) (hb' : BodyOk env t mi b') (ho : own t b = A ++ B) (ho' : own t b' = A ++ B.map flip)
    (hok : 8 + total (own t b) + rest.length < 2 ^ 16) (hr : carriesSample t = false → rest = [])
    (hfix : fixedPayloadSize t = some fixed) (hf : ∀ p, fixedFields ⟨t, mi, p⟩ = some (marks 8 A))
    (hv : variableFields ⟨t, mi, Serial.image (own t b') ++ rest⟩ = some (some (marks (8 + total A) B))) :
    decode ser true fixed ⟨t, mi, foreignImage (own t b) ++ rest⟩ = decode ser false fixed ⟨t, mi, Serial.image (own t b) ++ rest⟩ := by
  have hfl : ∀ L : List Piece, total (L.map flip) = total L := by
    intro L
    induction L with
    | nil => rfl
    | cons p L ih =>
      rw [List.map_cons, total_cons, total_cons, ih]
      cases p <;> rfl
  have ht : total (own t b') = total (own t b) := by rw [ho, ho', total_append, total_append, hfl]
  have s1 := (fixed_of (e := ⟨t, mi, Serial.image (own t b) ++ rest⟩) hb rfl
    (by show RawEvent.size _ < _; simp [RawEvent.size, Serial.image_length]; omega) hr hfix).2.2
  have s2 := (fixed_of (e := ⟨t, mi, Serial.image (own t b') ++ rest⟩) hb' rfl
    (by show RawEvent.size _ < _; simp [RawEvent.size, Serial.image_length, ht]; omega) hr hfix).2.2
  have z1 : RawEvent.size ⟨t, mi, Serial.image (own t b) ++ rest⟩ = 8 + total (own t b) + rest.length := by
    simp [RawEvent.size, Serial.image_length]; omega
  have z2 : RawEvent.size ⟨t, mi, Serial.image (own t b') ++ rest⟩ = 8 + total (own t b) + rest.length := by
    simp [RawEvent.size, Serial.image_length, ht]; omega
  rw [z1] at s1
  rw [z2] at s2
  simp only [ht] at s1 s2
  have hi : Serial.image (own t b') = Serial.image A ++ foreignImage B := by rw [ho', Serial.image_append, ← foreignImage_flip]
  rw [hi] at s2 hv
  rw [ho] at s1 s2 ⊢
  exact decode_both hf (s2.trans s1.symm) hv

theorem fields_namespaces (mi : Nat) (p : Serial.Bytes) : variableFields ⟨NAMESPACES, mi, p⟩ =
    (RawEvent.int ⟨NAMESPACES, mi, p⟩ 16 8).map fun nr =>
      some ((List.range nr).flatMap fun i => [(24 + 16 * i, 8), (24 + 16 * i + 8, 8)]) := if_pos rfl

theorem fields_auxtraceInfo (mi : Nat) (p : Serial.Bytes) : variableFields ⟨AUXTRACE_INFO, mi, p⟩ =
    some (some ((List.range ((RawEvent.size ⟨AUXTRACE_INFO, mi, p⟩ + 2 ^ 64 - 16) % 2 ^ 64 / 8)).map fun i => (16 + 8 * i, 8))) := by
  unfold variableFields; rw [if_neg (Nat.ne_of_beq_eq_false rfl), if_pos rfl]

theorem fields_idIndex (mi : Nat) (p : Serial.Bytes) : variableFields ⟨ID_INDEX, mi, p⟩ =
    (RawEvent.int ⟨ID_INDEX, mi, p⟩ 8 8).map fun nr => some ((List.range nr).flatMap fun i =>
      [(16 + 32 * i, 8), (16 + 32 * i + 8, 8), (16 + 32 * i + 16, 8), (16 + 32 * i + 24, 8)]) := by
  unfold variableFields; rw [if_neg (Nat.ne_of_beq_eq_false rfl), if_neg (Nat.ne_of_beq_eq_false rfl), if_pos rfl]

theorem fields_threadMap (mi : Nat) (p : Serial.Bytes) : variableFields ⟨THREAD_MAP, mi, p⟩ =
    (RawEvent.int ⟨THREAD_MAP, mi, p⟩ 8 8).map fun nr => some ((List.range nr).map fun i => (16 + 24 * i, 8)) := by
  unfold variableFields; rw [if_neg (Nat.ne_of_beq_eq_false rfl), if_neg (Nat.ne_of_beq_eq_false rfl), if_neg (Nat.ne_of_beq_eq_false rfl), if_pos rfl]

theorem fields_statConfig (mi : Nat) (p : Serial.Bytes) : variableFields ⟨STAT_CONFIG, mi, p⟩ =
    (RawEvent.int ⟨STAT_CONFIG, mi, p⟩ 8 8).map fun nr =>
      some ((List.range nr).flatMap fun i => [(16 + 16 * i, 8), (16 + 16 * i + 8, 8)]) := by
  unfold variableFields; rw [if_neg (Nat.ne_of_beq_eq_false rfl), if_neg (Nat.ne_of_beq_eq_false rfl), if_neg (Nat.ne_of_beq_eq_false rfl), if_neg (Nat.ne_of_beq_eq_false rfl), if_pos rfl]

theorem fields_timeConv (mi : Nat) (p : Serial.Bytes) : variableFields ⟨TIME_CONV, mi, p⟩ =
    some (some (if RawEvent.size ⟨TIME_CONV, mi, p⟩ = 56 then [(32, 8), (40, 8)] else [])) := by
  unfold variableFields
  rw [if_neg (Nat.ne_of_beq_eq_false rfl), if_neg (Nat.ne_of_beq_eq_false rfl), if_neg (Nat.ne_of_beq_eq_false rfl), if_neg (Nat.ne_of_beq_eq_false rfl), if_neg (Nat.ne_of_beq_eq_false rfl), if_neg (Nat.ne_of_beq_eq_false rfl), if_pos rfl]

theorem decode_namespaces {env : Serial.Env} {ser : Ser} {fixed t mi : Nat} {m : Namespaces} {rest : Serial.Bytes} (hb : BodyOk env t mi (.namespaces m))
    (hok : 8 + total (own t (.namespaces m)) + rest.length < 2 ^ 16) (hr : carriesSample t = false → rest = [])
    (hfix : fixedPayloadSize t = some fixed) :
    decode ser true fixed ⟨t, mi, foreignImage (own t (.namespaces m)) ++ rest⟩ =
      decode ser false fixed ⟨t, mi, Serial.image (own t (.namespaces m)) ++ rest⟩ := by
  obtain ⟨rfl, h1, h2, h3⟩ := id hb
  have hn : m.links.length < 2 ^ 64 := by
    have : total (m.links.flatMap fun x => [Piece.u64 x.1, .u64 x.2]) = 16 * m.links.length := total_flatMap _ fun _ _ => rfl
    simp only [own, total_append, this] at hok
    omega
  have ho' : own NAMESPACES (.namespaces { m with links := m.links.map fun x => (turn 8 x.1, turn 8 x.2) }) =
      [.u32 m.pid, .u32 m.tid, .u64 m.links.length] ++ (m.links.flatMap fun x => [Piece.u64 x.1, .u64 x.2]).map flip := by
    simp [own, List.map_flatMap, List.flatMap_map, flip]
  refine decode_entries hb (b' := .namespaces { m with links := m.links.map fun x => (turn 8 x.1, turn 8 x.2) })
    ⟨rfl, h1, h2, by
      intro x hx
      obtain ⟨y, -, rfl⟩ := List.mem_map.mp hx
      exact ⟨turn_lt 8 _, turn_lt 8 _⟩⟩ (A := [.u32 m.pid, .u32 m.tid, .u64 m.links.length]) rfl ho' hok hr hfix (fun _ => rfl) ?_
  have hint : RawEvent.int ⟨NAMESPACES, mi, Serial.image (own NAMESPACES
      (.namespaces { m with links := m.links.map fun x => (turn 8 x.1, turn 8 x.2) })) ++ rest⟩ 16 8 = some m.links.length := by
    rw [ho']
    exact u64_image (A := [.u32 m.pid, .u32 m.tid]) rfl rfl hn
  rw [fields_namespaces, hint, marks_entries (sz := 16) (h := fun o => [(o, 8), (o + 8, 8)]) _ _ (fun x _ => ⟨rfl, fun _ => rfl⟩)]
  rfl

theorem decode_statConfig {env : Serial.Env} {ser : Ser} {fixed t mi : Nat} {l : List (Nat × Nat)} {rest : Serial.Bytes} (hb : BodyOk env t mi (.statConfig l))
    (hok : 8 + total (own t (.statConfig l)) + rest.length < 2 ^ 16) (hr : carriesSample t = false → rest = [])
    (hfix : fixedPayloadSize t = some fixed) :
    decode ser true fixed ⟨t, mi, foreignImage (own t (.statConfig l)) ++ rest⟩ =
      decode ser false fixed ⟨t, mi, Serial.image (own t (.statConfig l)) ++ rest⟩ := by
  obtain ⟨rfl, h3⟩ := id hb
  have hn : l.length < 2 ^ 64 := by
    have : total (l.flatMap fun x => [Piece.u64 x.1, .u64 x.2]) = 16 * l.length := total_flatMap _ fun _ _ => rfl
    simp only [own, total_append, this] at hok
    omega
  have ho' : own STAT_CONFIG (.statConfig (l.map fun x => (turn 8 x.1, turn 8 x.2))) =
      [.u64 l.length] ++ (l.flatMap fun x => [Piece.u64 x.1, .u64 x.2]).map flip := by
    simp [own, List.map_flatMap, List.flatMap_map, flip]
  have hb' : BodyOk env STAT_CONFIG mi (.statConfig (l.map fun x => (turn 8 x.1, turn 8 x.2))) := by
    refine ⟨rfl, fun x hx => ?_⟩
    obtain ⟨y, -, rfl⟩ := List.mem_map.mp hx
    exact ⟨turn_lt 8 _, turn_lt 8 _⟩
  have hf : ∀ p, fixedFields ⟨STAT_CONFIG, mi, p⟩ = some (marks 8 [Piece.u64 l.length]) := fun _ => rfl
  refine decode_entries hb hb' (A := [.u64 l.length]) rfl ho' hok hr hfix hf ?_
  have hint : RawEvent.int ⟨STAT_CONFIG, mi, Serial.image (own STAT_CONFIG
      (.statConfig (l.map fun x => (turn 8 x.1, turn 8 x.2)))) ++ rest⟩ 8 8 = some l.length := by
    rw [ho']
    exact u64_image (A := []) (rest := rest) rfl rfl hn
  rw [show 8 + total [Piece.u64 l.length] = 16 from rfl, fields_statConfig, hint, marks_entries (sz := 16) (h := fun o => [(o, 8), (o + 8, 8)]) _ _ (fun x _ => ⟨rfl, fun _ => rfl⟩)]
  rfl

theorem decode_idIndex {env : Serial.Env} {ser : Ser} {fixed t mi : Nat} {l : List IdEntry} {rest : Serial.Bytes} (hb : BodyOk env t mi (.idIndex l))
    (hok : 8 + total (own t (.idIndex l)) + rest.length < 2 ^ 16) (hr : carriesSample t = false → rest = [])
    (hfix : fixedPayloadSize t = some fixed) :
    decode ser true fixed ⟨t, mi, foreignImage (own t (.idIndex l)) ++ rest⟩ =
      decode ser false fixed ⟨t, mi, Serial.image (own t (.idIndex l)) ++ rest⟩ := by
  obtain ⟨rfl, h3⟩ := id hb
  have hn : l.length < 2 ^ 64 := by
    have : total (l.flatMap fun x => [Piece.u64 x.id, .u64 x.idx, .u64 x.cpu, .u64 x.tid]) = 32 * l.length :=
      total_flatMap _ fun _ _ => rfl
    simp only [own, total_append, this] at hok
    omega
  have ho' : own ID_INDEX (.idIndex (l.map fun x => ⟨turn 8 x.id, turn 8 x.idx, turn 8 x.cpu, turn 8 x.tid⟩)) =
      [.u64 l.length] ++ (l.flatMap fun x => [Piece.u64 x.id, .u64 x.idx, .u64 x.cpu, .u64 x.tid]).map flip := by
    simp [own, List.map_flatMap, List.flatMap_map, flip]
  have hb' : BodyOk env ID_INDEX mi (.idIndex (l.map fun x => ⟨turn 8 x.id, turn 8 x.idx, turn 8 x.cpu, turn 8 x.tid⟩)) := by
    refine ⟨rfl, fun x hx => ?_⟩
    obtain ⟨y, -, rfl⟩ := List.mem_map.mp hx
    exact ⟨turn_lt 8 _, turn_lt 8 _, turn_lt 8 _, turn_lt 8 _⟩
  have hf : ∀ p, fixedFields ⟨ID_INDEX, mi, p⟩ = some (marks 8 [Piece.u64 l.length]) := fun _ => rfl
  refine decode_entries hb hb' (A := [.u64 l.length]) rfl ho' hok hr hfix hf ?_
  have hint : RawEvent.int ⟨ID_INDEX, mi, Serial.image (own ID_INDEX
      (.idIndex (l.map fun x => ⟨turn 8 x.id, turn 8 x.idx, turn 8 x.cpu, turn 8 x.tid⟩))) ++ rest⟩ 8 8 = some l.length := by
    rw [ho']
    exact u64_image (A := []) (rest := rest) rfl rfl hn
  rw [show 8 + total [Piece.u64 l.length] = 16 from rfl, fields_idIndex, hint, marks_entries (sz := 32) (h := fun o => [(o, 8), (o + 8, 8), (o + 16, 8), (o + 24, 8)]) _ _ (fun x _ => ⟨rfl, fun _ => rfl⟩)]
  rfl

theorem decode_threadMap {env : Serial.Env} {ser : Ser} {fixed t mi : Nat} {l : List ThreadEntry} {rest : Serial.Bytes} (hb : BodyOk env t mi (.threadMap l))
    (hok : 8 + total (own t (.threadMap l)) + rest.length < 2 ^ 16) (hr : carriesSample t = false → rest = [])
    (hfix : fixedPayloadSize t = some fixed) :
    decode ser true fixed ⟨t, mi, foreignImage (own t (.threadMap l)) ++ rest⟩ =
      decode ser false fixed ⟨t, mi, Serial.image (own t (.threadMap l)) ++ rest⟩ := by
  obtain ⟨rfl, h3⟩ := id hb
  have hn : l.length < 2 ^ 64 := by
    have : total (l.flatMap fun x => [Piece.u64 x.pid] ++ array 16 x.comm) = 24 * l.length :=
      total_flatMap _ fun x hx => by rw [total_append, total_array (by have := (h3 x hx).2.1.2; omega)]; rfl
    simp only [own, total_append, this] at hok
    omega
  have ho' : own THREAD_MAP (.threadMap (l.map fun x => { x with pid := turn 8 x.pid })) =
      [.u64 l.length] ++ (l.flatMap fun x => [Piece.u64 x.pid] ++ array 16 x.comm).map flip := by
    simp [own, List.map_flatMap, List.flatMap_map, flip, array]
  refine decode_entries hb (b' := .threadMap (l.map fun x => { x with pid := turn 8 x.pid }))
    ⟨rfl, by
      intro x hx
      obtain ⟨y, hy, rfl⟩ := List.mem_map.mp hx
      exact ⟨turn_lt 8 _, (h3 y hy).2⟩⟩ (A := [.u64 l.length]) rfl ho' hok hr hfix (fun _ => rfl) ?_
  have hint : RawEvent.int ⟨THREAD_MAP, mi, Serial.image (own THREAD_MAP
      (.threadMap (l.map fun x => { x with pid := turn 8 x.pid }))) ++ rest⟩ 8 8 = some l.length := by
    rw [ho']
    exact u64_image (A := []) (rest := rest) rfl rfl hn
  rw [show 8 + total [Piece.u64 l.length] = 16 from rfl, fields_threadMap, hint, marks_entries (sz := 24) (h := fun o => [(o, 8)]) _ _ (fun x hx => ⟨by
    rw [total_append, total_array (by have := (h3 x hx).2.1.2; omega)]; rfl, fun _ => rfl⟩)]
  simp only [Option.map_some, ← List.map_eq_flatMap]

theorem decode_auxtraceInfo {env : Serial.Env} {ser : Ser} {fixed t mi : Nat} {m : AuxtraceInfo} {rest : Serial.Bytes} (hb : BodyOk env t mi (.auxtraceInfo m))
    (hok : 8 + total (own t (.auxtraceInfo m)) + rest.length < 2 ^ 16) (hr : carriesSample t = false → rest = [])
    (hfix : fixedPayloadSize t = some fixed) :
    decode ser true fixed ⟨t, mi, foreignImage (own t (.auxtraceInfo m)) ++ rest⟩ =
      decode ser false fixed ⟨t, mi, Serial.image (own t (.auxtraceInfo m)) ++ rest⟩ := by
  obtain ⟨rfl, h1, h3⟩ := id hb
  have ht : total (m.priv.flatMap fun x => [Piece.u64 x]) = 8 * m.priv.length := total_flatMap _ fun _ _ => rfl
  have ho' : own AUXTRACE_INFO (.auxtraceInfo { m with priv := m.priv.map (turn 8) }) =
      [.u32 m.type, .pad 4] ++ (m.priv.flatMap fun x => [Piece.u64 x]).map flip := by
    simp [own, List.map_flatMap, List.flatMap_map, flip]
  refine decode_entries hb (b' := .auxtraceInfo { m with priv := m.priv.map (turn 8) })
    ⟨rfl, h1, by
      intro x hx
      obtain ⟨y, -, rfl⟩ := List.mem_map.mp hx
      exact turn_lt 8 _⟩ (A := [.u32 m.type, .pad 4]) rfl ho' hok hr hfix (fun _ => rfl) ?_
  obtain rfl := hr (by decide)
  have hsz : RawEvent.size ⟨AUXTRACE_INFO, mi, Serial.image (own AUXTRACE_INFO
      (.auxtraceInfo { m with priv := m.priv.map (turn 8) })) ++ []⟩ = 16 + 8 * m.priv.length := by
    unfold RawEvent.size
    rw [List.append_nil, Serial.image_length]
    simp only [own, total_append]
    rw [total_flatMap (sz := 8) _ fun _ _ => rfl]
    simp [total, Piece.len]
    omega
  have hlim : 8 * m.priv.length < 2 ^ 16 := by
    simp only [own, total_append, ht] at hok
    omega
  rw [fields_auxtraceInfo, hsz, marks_entries (sz := 8) (h := fun o => [(o, 8)]) _ _ (fun x _ => ⟨rfl, fun _ => rfl⟩), ← List.map_eq_flatMap,
    show (16 + 8 * m.priv.length + 2 ^ 64 - 16) % 2 ^ 64 / 8 = m.priv.length by omega]
  rfl

theorem decode_timeConv {env : Serial.Env} {ser : Ser} {fixed t mi : Nat} {m : TimeConv} {rest : Serial.Bytes} (hb : BodyOk env t mi (.timeConv m))
    (hok : 8 + total (own t (.timeConv m)) + rest.length < 2 ^ 16) (hr : carriesSample t = false → rest = [])
    (hfix : fixedPayloadSize t = some fixed) :
    decode ser true fixed ⟨t, mi, foreignImage (own t (.timeConv m)) ++ rest⟩ =
      decode ser false fixed ⟨t, mi, Serial.image (own t (.timeConv m)) ++ rest⟩ := by
  obtain ⟨rfl, h1, h2, h3, h4, h5, h6⟩ := id hb
  obtain rfl := hr (by decide)
  cases hc : m.cycles with
  | none =>
    have ho : own TIME_CONV (.timeConv m) = [.u64 m.shift, .u64 m.mult, .u64 m.zero] ++ [] := by simp [own, hc]
    refine decode_entries hb (b' := .timeConv m) hb (A := [.u64 m.shift, .u64 m.mult, .u64 m.zero]) ho ho hok hr hfix (fun _ => rfl) ?_
    rw [ho, fields_timeConv, if_neg (by unfold RawEvent.size; rw [List.append_nil, Serial.image_length]; exact Nat.ne_of_beq_eq_false rfl)]
    rfl
  | some c =>
    have ho : own TIME_CONV (.timeConv m) = [.u64 m.shift, .u64 m.mult, .u64 m.zero] ++
        [.u64 c, .u64 m.mask, .bytes [UInt8.ofNat m.capZero.toNat], .bytes [UInt8.ofNat m.capShort.toNat], .pad 6] := by simp [own, hc]
    have ho' : own TIME_CONV (.timeConv { m with cycles := some (turn 8 c), mask := turn 8 m.mask }) =
      [.u64 m.shift, .u64 m.mult, .u64 m.zero] ++
        [.u64 (turn 8 c), .u64 (turn 8 m.mask), .bytes [UInt8.ofNat m.capZero.toNat], .bytes [UInt8.ofNat m.capShort.toNat], .pad 6] := by
      simp [own]
    refine decode_entries hb (b' := .timeConv { m with cycles := some (turn 8 c), mask := turn 8 m.mask })
      ⟨rfl, h1, h2, h3, turn_lt 8 _, by intro x hx; cases hx; exact turn_lt 8 _, nofun⟩
      (A := [.u64 m.shift, .u64 m.mult, .u64 m.zero]) ho ho' hok hr hfix (fun _ => rfl) ?_
    rw [ho', fields_timeConv, if_pos (by unfold RawEvent.size; rw [List.append_nil, Serial.image_length]; rfl)]
    rfl

/-- An event in the other byte order is turned into the event in native order; sample fields are left alone. -/
theorem decode_foreign {env : Serial.Env} {ser : Ser} {fixed t mi : Nat} {b : Body} {rest : Serial.Bytes} (hb : BodyOk env t mi b)
    (hk : t ≠ KSYMBOL ∧ t ≠ CGROUP) (hok : 8 + total (own t b) + rest.length < 2 ^ 16) (hr : carriesSample t = false → rest = [])
    (hfix : fixedPayloadSize t = some fixed) :
    decode ser true fixed ⟨t, mi, foreignImage (own t b) ++ rest⟩ = decode ser false fixed ⟨t, mi, Serial.image (own t b) ++ rest⟩ := by
  cases b with
  | none => obtain rfl : t = FINISHED_ROUND := hb; exact decode_plain (fun _ => rfl) (fun _ => rfl)
  | sample s => obtain rfl : t = SAMPLE := hb; exact decode_plain (fun _ => rfl) (fun _ => rfl)
  | mmap m =>
    obtain ⟨-, -, -, -, -, -, ⟨rfl, -⟩ | ⟨rfl, -, -, hbit, hid⟩⟩ := hb
    · exact decode_plain (fun _ => rfl) (fun _ => rfl)
    · refine decode_plain (fun p => ?_) (fun _ => rfl)
      show some _ = some _
      cases hm : m.buildId with
      | none =>
        rw [hm] at hbit
        simp only [Option.isSome_none] at hbit
        simp only [← hbit, own, hm]
        rfl
      | some h =>
        rw [hm] at hbit hid
        simp only [Option.isSome_some] at hbit
        obtain ⟨-, -, -, -, id, hl, rfl⟩ := hid
        simp only [← hbit, own, hm, unhex_hex, if_true]
        rw [marks_append, marks_append, marks_append, total_append, total_append, total_buildId hl]
        rfl
  | comm m => obtain ⟨rfl, -⟩ := hb; exact decode_plain (fun _ => rfl) (fun _ => rfl)
  | fork m => obtain ⟨rfl, -⟩ := hb; exact decode_fork (Or.inl rfl)
  | exit m => obtain ⟨rfl, -⟩ := hb; exact decode_fork (Or.inr rfl)
  | lost m => obtain ⟨rfl, -⟩ := hb; exact decode_plain (fun _ => rfl) (fun _ => rfl)
  | throttle m =>
    obtain ⟨rfl | rfl, -⟩ := hb
    · exact decode_plain (fun _ => rfl) (fun _ => rfl)
    · exact decode_plain (fun _ => rfl) (fun _ => rfl)
  | aux m => obtain ⟨rfl, -⟩ := hb; exact decode_plain (fun _ => rfl) (fun _ => rfl)
  | itraceStart m => obtain ⟨rfl, -⟩ := hb; exact decode_plain (fun _ => rfl) (fun _ => rfl)
  | lostSamples m => obtain ⟨rfl, -⟩ := hb; exact decode_plain (fun _ => rfl) (fun _ => rfl)
  | switch m =>
    obtain ⟨-, ⟨rfl, -⟩ | ⟨rfl, -⟩⟩ := hb
    · exact decode_plain (fun _ => rfl) (fun _ => rfl)
    · exact decode_plain (fun _ => rfl) (fun _ => rfl)
  | namespaces m => exact decode_namespaces hb hok hr hfix
  | cgroup m => exact absurd hb.1 hk.2
  | ksymbol m => exact absurd hb.1 hk.1
  | bpf m =>
    obtain ⟨rfl, hn, hm, -, -⟩ := hb
    refine decode_plain (fun p => ?_) (fun _ => rfl)
    show some _ = some _
    rw [show own BPF_METADATA (.bpf m) = array 512 m.progName ++ [.u64 m.metadata.length] ++
      m.metadata.flatMap fun x => array 64 x.1 ++ array 256 x.2 from rfl, marks_append, marks_append,
      total_array (by have := hn.2; omega), marks_entries (sz := 320) (h := fun _ => []) _ _ (fun x hx => ⟨by
        rw [total_append, total_array (by have := (hm x hx).1.2; omega), total_array (by have := (hm x hx).2.2; omega)],
        fun o => by rw [marks_append]; rfl⟩)]
    simp [marks, marks_array]
  | auxtraceInfo m => exact decode_auxtraceInfo hb hok hr hfix
  | auxtrace m => obtain ⟨rfl, -⟩ := hb; exact decode_plain (fun _ => rfl) (fun _ => rfl)
  | auxtraceError m => obtain ⟨rfl, -⟩ := hb; exact decode_plain (fun _ => rfl) (fun _ => rfl)
  | idIndex l => exact decode_idIndex hb hok hr hfix
  | threadMap l => exact decode_threadMap hb hok hr hfix
  | statConfig l => exact decode_statConfig hb hok hr hfix
  | stat m => obtain ⟨rfl, -⟩ := hb; exact decode_plain (fun _ => rfl) (fun _ => rfl)
  | statRound ty t => obtain ⟨rfl, -⟩ := hb; exact decode_plain (fun _ => rfl) (fun _ => rfl)
  | timeConv m => exact decode_timeConv hb hok hr hfix

end Verif.File
