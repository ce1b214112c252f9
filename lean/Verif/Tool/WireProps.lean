import Verif.Tool.Wire

/-!
# Recordings are not taken for messages, and messages are taken for messages
-/

namespace Verif.Tool

/-! ## Specification: the encoding of messages -/

mutual
/-- The value of a field: a number, a string or bytes, or a message. -/
inductive Val where
  | number (n : Nat)
  | bytes (b : Bytes)
  | message (fs : Fields)

/-- The fields of a message, with their numbers, in the order in which they are written. -/
inductive Fields where
  | nil
  | cons (num : Nat) (v : Val) (fs : Fields)
end

/-- A number with seven bits in each byte, the lowest first; the highest bit of a byte tells that more follow. -/
def varint (n : Nat) : Bytes :=
  if h : n < 128 then [UInt8.ofNat n] else UInt8.ofNat (n % 128 + 128) :: varint (n / 128)
termination_by n
decreasing_by omega

mutual
/-- The bytes of a field: its number with how its value is written, and the value, with its length unless it is a number. -/
def Val.encode (num : Nat) : Val → Bytes
  | .number n => varint (8 * num) ++ varint n
  | .bytes b => varint (8 * num + 2) ++ (varint b.length ++ b)
  | .message fs => varint (8 * num + 2) ++ (varint fs.encode.length ++ fs.encode)

/-- The bytes of a message. -/
def Fields.encode : Fields → Bytes
  | .nil => []
  | .cons num v fs => v.encode num ++ fs.encode
end

mutual
/-- A value that a field of a message can have, for messages nested `depth` deep. Numbers have 64 bits and lengths 31. -/
def Val.Fits (depth : Nat) (msg num : Nat) : Val → Prop
  | .number n => n < 2 ^ 64 ∧ (fieldKind (some msg) num = some .number ∨ fieldKind (some msg) num = some .numbers)
  | .bytes b => b.length < 2 ^ 31 ∧ fieldKind (some msg) num = some .bytes
  | .message fs => fs.encode.length < 2 ^ 31 ∧ ∃ m, fieldKind (some msg) num = some (.message m) ∧ 0 < depth ∧ fs.Fits (depth - 1) m

/-- Fields that a message can have. -/
def Fields.Fits (depth : Nat) (msg : Nat) : Fields → Prop
  | .nil => True
  | .cons num v fs => v.Fits depth msg num ∧ fs.Fits depth msg
end

/-! ## Reading what was written -/

theorem read_varint : ∀ (k : Nat) {n : Nat}, 0 < k → n < 128 ^ k → ∀ rest, readVarint k (varint n ++ rest) = some (n, rest)
  | 0, n, hk, _, rest => absurd hk (Nat.lt_irrefl _)
  | k + 1, n, _, hn, rest => by
    rw [varint]
    split
    · rename_i h
      have : (UInt8.ofNat n).toNat = n := by simp; omega
      rw [List.cons_append, readVarint, this, if_pos h]
      rfl
    · rename_i h
      have h1 : (UInt8.ofNat (n % 128 + 128)).toNat = n % 128 + 128 := by simp; omega
      have hk : 0 < k := by
        rcases Nat.eq_zero_or_pos k with rfl | hk
        · rw [Nat.zero_add, Nat.pow_one] at hn; omega
        · exact hk
      have hn' : n / 128 < 128 ^ k := by
        rw [Nat.pow_succ] at hn
        exact Nat.div_lt_of_lt_mul (by omega)
      rw [List.cons_append, readVarint, h1, if_neg (by omega), read_varint k hk hn' rest]
      simp only [Option.map_some, Option.some.injEq, Prod.mk.injEq, and_true]
      omega

theorem varint_ne (n : Nat) : ∃ x l, varint n = x :: l := by
  rw [varint]
  split <;> exact ⟨_, _, rfl⟩

/-- The numbers of the fields of all messages. -/
theorem field_small {msg : Option Nat} {num : Nat} {k : Kind} (h : fieldKind msg num = some k) : 0 < num ∧ num < 64 := by
  unfold fieldKind at h
  obtain ⟨fs, h1, h2⟩ := Option.bind_eq_some_iff.1 h
  obtain ⟨m, h3, h4⟩ := Option.bind_eq_some_iff.1 h1
  have hm : fs ∈ schema := List.mem_of_getElem? h4
  have hall : ∀ fs ∈ schema, ∀ f ∈ fs, 0 < f.1 ∧ f.1 < 64 := by decide +kernel
  have : ∀ (l : List (Nat × Kind)), l.lookup num = some k → (num, k) ∈ l := by
    intro l
    induction l with
    | nil => intro h; cases h
    | cons x l ih =>
      intro h
      obtain ⟨a, b⟩ := x
      rw [List.lookup_cons] at h
      split at h
      · rename_i he
        rw [beq_iff_eq] at he
        cases h; subst he
        exact List.mem_cons_self
      · exact List.mem_cons_of_mem _ (ih h)
  exact hall fs hm _ (this fs h2)

/-- One step of reading fields. -/
theorem fields_tag {fuel depth msg : Nat} {t : Nat} (ht : t < 512) (h0 : 8 ≤ t) (rest : Bytes) :
    fields (fuel + 1) depth (some msg) none (varint t ++ rest) =
      (if t % 8 = 0 then
        match readVarint 10 rest with
        | some (_, r) => fields fuel depth (some msg) none r
        | none => none
      else if t % 8 = 2 then
        match readVarint 5 rest with
        | none => none
        | some (n, b) =>
          if n ≥ 2 ^ 31 ∨ n > b.length then none
          else
            match fieldKind (some msg) (t / 8) with
            | some (.message m) =>
              if depth = 0 then none
              else if fields fuel (depth - 1) (some m) none (b.take n) = some [] then fields fuel depth (some msg) none (b.drop n)
              else none
            | some .numbers => if packed n (b.take n) then fields fuel depth (some msg) none (b.drop n) else none
            | _ => fields fuel depth (some msg) none (b.drop n)
      else fields (fuel + 1) depth (some msg) none (varint t ++ rest)) := by
  obtain ⟨x, l, hx⟩ := varint_ne t
  have hr := read_varint 5 (n := t) (by omega) (by omega) rest
  rw [hx, List.cons_append] at hr
  by_cases h1 : t % 8 = 0
  · rw [if_pos h1, hx, List.cons_append, fields, hr]
    simp only
    rw [Nat.mod_eq_of_lt (show t < 2 ^ 32 by omega), if_neg (by omega), if_pos h1]
    rfl
  · by_cases h2 : t % 8 = 2
    · rw [if_neg h1, if_pos h2, hx, List.cons_append, fields, hr]
      simp only
      rw [Nat.mod_eq_of_lt (show t < 2 ^ 32 by omega), if_neg (by omega), if_neg h1, if_neg (by omega), if_pos h2]
      rfl
    · rw [if_neg h1, if_neg h2]

mutual
theorem val_fits {num : Nat} {msg : Nat} {depth : Nat} : ∀ (v : Val) (_ : v.Fits depth msg num) (rest : Bytes) (fuel : Nat),
    (v.encode num ++ rest).length < fuel → (∀ fuel', rest.length < fuel' → fields fuel' depth (some msg) none rest = some []) →
    fields fuel depth (some msg) none (v.encode num ++ rest) = some []
  | .number n, h, rest, fuel, hf, hr => by
    rw [Val.Fits] at h
    have hs : 0 < num ∧ num < 64 := by
      rcases h.2 with h | h <;> exact field_small h
    obtain ⟨x, l, hx⟩ := varint_ne (8 * num)
    obtain ⟨y, l', hy⟩ := varint_ne n
    cases fuel with
    | zero => omega
    | succ fuel =>
      rw [Val.encode, List.append_assoc, fields_tag (by omega) (by omega), if_pos (by omega),
        read_varint 10 (by omega) (Nat.lt_of_lt_of_le h.1 (by decide))]
      refine hr fuel ?_
      rw [Val.encode, hx, hy] at hf
      simp only [List.length_append, List.length_cons] at hf
      omega
  | .bytes b, h, rest, fuel, hf, hr => by
    rw [Val.Fits] at h
    have hs := field_small h.2
    obtain ⟨x, l, hx⟩ := varint_ne (8 * num + 2)
    obtain ⟨y, l', hy⟩ := varint_ne b.length
    cases fuel with
    | zero => omega
    | succ fuel =>
      rw [Val.encode, List.append_assoc, List.append_assoc, fields_tag (by omega) (by omega), if_neg (by omega), if_pos (by omega),
        read_varint 5 (by omega) (Nat.lt_of_lt_of_le h.1 (by decide))]
      have hd : (8 * num + 2) / 8 = num := by omega
      have hc : ¬ (b.length ≥ 2 ^ 31 ∨ b.length > (b ++ rest).length) := by
        rw [List.length_append]; omega
      simp only [hd, h.2, if_neg hc, List.drop_left]
      refine hr fuel ?_
      rw [Val.encode, hx, hy] at hf
      simp only [List.length_append, List.length_cons] at hf
      omega
  | .message fs, h, rest, fuel, hf, hr => by
    rw [Val.Fits] at h
    obtain ⟨hl, m, hk, hd0, hfs⟩ := h
    have hs := field_small hk
    obtain ⟨x, l, hx⟩ := varint_ne (8 * num + 2)
    obtain ⟨y, l', hy⟩ := varint_ne fs.encode.length
    cases fuel with
    | zero => omega
    | succ fuel =>
      have hfl : fs.encode.length + rest.length < fuel := by
        rw [Val.encode, hx, hy] at hf
        simp only [List.length_append, List.length_cons] at hf
        omega
      rw [Val.encode, List.append_assoc, List.append_assoc, fields_tag (by omega) (by omega), if_neg (by omega), if_pos (by omega),
        read_varint 5 (by omega) (Nat.lt_of_lt_of_le hl (by decide))]
      have hd : (8 * num + 2) / 8 = num := by omega
      have hc : ¬ (fs.encode.length ≥ 2 ^ 31 ∨ fs.encode.length > (fs.encode ++ rest).length) := by
        rw [List.length_append]; omega
      have hi := fields_fit fs hfs fuel (by omega)
      simp only [hd, hk, if_neg hc, List.drop_left, List.take_left, hi, if_true, if_neg (show ¬ depth = 0 by omega)]
      exact hr fuel (by omega)

theorem fields_fit {msg : Nat} {depth : Nat} : ∀ (fs : Fields) (_ : fs.Fits depth msg) (fuel : Nat), fs.encode.length < fuel →
    fields fuel depth (some msg) none fs.encode = some []
  | .nil, _, fuel, hf => by
    cases fuel with
    | zero => omega
    | succ fuel => rw [Fields.encode, fields, if_pos rfl]
  | .cons num v fs, h, fuel, hf => by
    rw [Fields.Fits] at h
    rw [Fields.encode] at hf ⊢
    exact val_fits v h.1 fs.encode fuel hf (fun fuel' hf' => fields_fit fs h.2 fuel' hf')
end

/-- C114: the encoding of a message is taken for a message, whichever of its fields it has and in whichever order, nested up to a
hundred deep. -/
theorem encoded_is_message (fs : Fields) (h : fs.Fits 100 0) : isMessage fs.encode = true := by
  unfold isMessage
  rw [fields_fit fs h _ (by omega)]
  rfl

end Verif.Tool
