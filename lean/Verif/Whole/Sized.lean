import Verif.Whole.Origin

/-! The numbers in a message that was read from bytes are those of 64 bits, and its strings are short. -/

namespace Verif.Whole
open Verif.Buffer Verif.Event Verif.Sample Verif.Attr Verif.Names Verif.Text Verif.Util Verif.Meta Verif.Serial Verif.Data Verif.File

/-- The addresses in a sample. -/
def addresses (s : SampleEvent) : List Nat :=
  s.ip.getD 0 :: s.addr.getD 0 :: (s.callchain ++ s.branches.flatMap (fun b => [b.fromIp, b.toIp]))

/-- The message is small, and so are the names and the addresses in it. -/
structure Sized (m : Msg) : Prop where
  size : m.size < 2 ^ 16
  name : ∀ b, m.body = .mmap b → b.filename.length < 2 ^ 16
  buildId : ∀ b, m.body = .mmap b → ∀ x, b.buildId = some x → x.length ≤ 40
  address : ∀ s, m.body = .sample s → ∀ a ∈ addresses s, a < 2 ^ 64

/-! ## Samples -/

theorem ends_int {n : Nat} (hn : n = 2 ∨ n = 4 ∨ n = 8) : Ends (fun r : Reader => r.readInt n) fun v => v < 256 ^ n := by
  intro r a r' h
  simp only [Reader.readInt] at h
  split at h
  · cases h
  · cases h
  · rename_i d r1 hd
    have hl : d.length = n := ends_data n r d r1 hd
    have hs := maybeSwap_decode (d := d) (by omega) r.cross
    rw [hl] at hs
    rw [hs] at h
    cases h
    have := decodeInt_lt r.cross d
    rwa [hl] at this

theorem ends_u64 : Ends u64 fun v => v < 2 ^ 64 := ends_int (n := 8) (by omega)

theorem Ends.opt {α : Type} {c : Bool} {p : P α} {d : α} {Q : α → Prop} (hp : Ends p Q) (hd : Q d) : Ends (opt c p d) Q := by
  unfold Sample.opt
  cases c
  · exact Ends.pure hd
  · exact hp

theorem Ends.times {α : Type} {p : P α} {Q : α → Prop} (hp : Ends p Q) : ∀ n, Ends (times p n) fun l => ∀ a ∈ l, Q a
  | 0 => Ends.pure fun _ h => by cases h
  | n + 1 => Ends.bind hp fun a ha => Ends.bind (Ends.times hp n) fun l hl => Ends.pure fun x hx => by
      rcases List.mem_cons.1 hx with rfl | hx
      · exact ha
      · exact hl x hx

theorem Ends.guard {α : Type} {num entry : Nat} {p : P α} {Q : α → Prop} (hp : Ends p Q) : Ends (guardAlloc num entry p) Q := by
  intro r a r' h
  unfold guardAlloc at h
  split at h
  · cases h
  · split at h
    · cases h
    · exact hp r a r' h

/-- The addresses of a sample as it is read. -/
structure SmallSample (s : Sample) : Prop where
  ip : s.ip < 2 ^ 64
  addr : s.addr < 2 ^ 64
  chain : ∀ a ∈ s.callchain.getD [], a < 2 ^ 64
  branches : ∀ b ∈ (s.branchStack.getD {}).entries, b.fromIp < 2 ^ 64 ∧ b.toIp < 2 ^ 64

theorem small_readInfo {rf : Nat} {s : Sample} (h : SmallSample s) : Ends (readReadInfo rf s) SmallSample := by
  unfold readReadInfo
  exact Ends.next fun _ => Ends.next fun _ => Ends.next fun _ => Ends.next fun _ => Ends.next fun _ => Ends.pure ⟨h.1, h.2, h.3, h.4⟩

theorem small_group {rf : Nat} {s : Sample} (h : SmallSample s) : Ends (readGroupReadInfo rf s) SmallSample := by
  unfold readGroupReadInfo
  exact Ends.next fun _ => Ends.next fun _ => Ends.next fun _ => Ends.ite (fun _ => Ends.abort) fun _ => Ends.guard
    (Ends.next fun _ => Ends.pure ⟨h.1, h.2, h.3, h.4⟩)

theorem small_chain {s : Sample} (h : SmallSample s) : Ends (readCallchain s) SmallSample := by
  unfold readCallchain
  exact Ends.ite (fun _ => Ends.abort) fun _ => Ends.next fun n => Ends.guard (Ends.bind (Ends.times ends_u64 n) fun l hl =>
    Ends.pure ⟨h.1, h.2, hl, h.4⟩)

theorem small_raw {s : Sample} (h : SmallSample s) : Ends (readRawData s) SmallSample := by
  unfold readRawData
  exact Ends.next fun _ => Ends.next fun _ => Ends.guard (Ends.next fun _ => Ends.next fun _ => Ends.pure ⟨h.1, h.2, h.3, h.4⟩)

theorem small_entry : Ends readBranchEntry fun b => b.fromIp < 2 ^ 64 ∧ b.toIp < 2 ^ 64 := by
  unfold readBranchEntry
  exact Ends.bind ends_u64 fun f hf => Ends.bind ends_u64 fun t ht => Ends.next fun _ => Ends.next fun _ => Ends.ite (fun _ => Ends.fail)
    fun _ => Ends.pure ⟨hf, ht⟩

theorem small_branch {s : Sample} (h : SmallSample s) : Ends (readBranchStack s) SmallSample := by
  unfold readBranchStack
  exact Ends.ite (fun _ => Ends.abort) fun _ => Ends.next fun n => Ends.next fun hw => Ends.guard (Ends.bind (Ends.times small_entry n) fun l hl =>
    Ends.pure ⟨h.1, h.2, h.3, hl⟩)

theorem small_fields {a : Sample.Attr} {isSample : Bool} {f : Nat} {s : Sample} (h : SmallSample s) :
    Ends (readFields a isSample f s) SmallSample := by
  unfold readFields
  refine Ends.next fun _ => Ends.bind (Ends.opt ends_u64 h.ip) fun ip hip => Ends.next fun _ => Ends.next fun _ => Ends.next fun _ =>
    Ends.bind (Ends.opt ends_u64 h.addr) fun ad had => Ends.next fun _ => Ends.next fun _ => Ends.next fun _ => Ends.next fun _ =>
    Ends.next fun _ => Ends.next fun _ => ?_
  refine Ends.bind (Q := SmallSample) (Ends.opt ?_ ⟨hip, had, h.3, h.4⟩) fun s1 h1 => ?_
  · split
    · exact small_group ⟨hip, had, h.3, h.4⟩
    · exact small_readInfo ⟨hip, had, h.3, h.4⟩
  refine Ends.bind (Ends.opt (small_chain h1) h1) fun s2 h2 => Ends.bind (Ends.opt (small_raw h2) h2) fun s3 h3 =>
    Ends.bind (Q := SmallSample) (Ends.opt (small_branch ⟨h3.1, h3.2, h3.3, h3.4⟩) h3) fun s4 h4 => ?_
  exact Ends.ite (fun _ => Ends.fail) fun _ => Ends.ite (fun _ => Ends.fail) fun _ => Ends.next fun _ => Ends.next fun _ => Ends.next fun _ =>
    Ends.ite (fun _ => Ends.fail) fun _ => Ends.next fun _ => Ends.next fun _ => Ends.next fun _ => Ends.next fun _ =>
    Ends.ite (fun _ => Ends.fail) fun _ => Ends.pure ⟨h4.1, h4.2, h4.3, h4.4⟩

theorem small_info {e : RawEvent} {header : List UInt8} {a : Sample.Attr} {cross : Bool} {s s' : Sample} (hs : SmallSample s)
    (h : readPerfSampleInfo e header a cross s = some (some s')) : SmallSample s' := by
  unfold readPerfSampleInfo at h
  split at h
  · cases h
  · split at h
    · cases h
    · cases h
    · rename_i s1 n hd
      split at h
      · cases h
        unfold readPerfSampleFromData at hd
        split at hd
        · cases hd
        · split at hd
          · cases hd
          · simp only at hd
            split at hd
            · cases hd
            · split at hd
              · cases hd; exact hs
              · split at hd
                · cases hd
                · split at hd
                  · cases hd
                  · cases hd
                  · rename_i hf
                    cases hd
                    exact small_fields hs _ _ _ hf
      · cases h

theorem setIf_getD {c : Bool} {v : Nat} (h : v < 2 ^ 64) : (setIf c v).getD 0 < 2 ^ 64 := by
  unfold setIf
  split
  · exact h
  · exact Nat.two_pow_pos 64

theorem readSample_small {ser : Ser} {e : RawEvent} {m : SampleEvent} (h : readSample ser e = some (some m)) : ∀ a ∈ addresses m, a < 2 ^ 64 := by
  unfold readSample at h
  split at h
  · cases h
  · cases h
  · rename_i s st hi
    have hs : SmallSample s := by
      unfold readInfoAndType at hi
      split at hi
      · cases hi
      · cases hi
      · split at hi
        · cases hi
        · cases hi
        · rename_i hp
          cases hi
          exact small_info ⟨by decide, by decide, fun _ h => (by cases h), fun _ h => (by cases h)⟩ hp
    split at h
    · cases h
    · split at h
      · cases h
      · simp only at h
        cases h
        intro a ha
        unfold addresses at ha
        simp only [List.mem_cons, List.mem_append, List.mem_flatMap] at ha
        rcases ha with rfl | rfl | ha | ⟨b, hb, ha⟩
        · exact setIf_getD hs.ip
        · exact setIf_getD hs.addr
        · split at ha
          · exact hs.chain a ha
          · cases ha
        · split at hb
          · obtain ⟨b', hb', rfl⟩ := List.mem_map.1 hb
            have := hs.branches b' hb'
            rcases ha with rfl | rfl | ha
            · exact this.1
            · exact this.2
            · cases ha
          · cases hb

/-! ## Mappings -/

theorem cstr_small {e : RawEvent} {off : Nat} {s : Serial.Bytes} (h : cstr e off = some s) : s.length ≤ e.payload.length := by
  unfold cstr at h
  split at h
  · simp only at h
    split at h
    · cases h
      unfold cStr
      have h1 := (List.takeWhile_sublist (p := fun x : UInt8 => x ≠ 0) (l := e.payload.drop (off - 8))).length_le
      rw [List.length_drop] at h1
      exact Nat.le_trans h1 (Nat.sub_le _ _)
    · cases h
  · cases h

theorem readMMap_small {env : Serial.Env} {e : RawEvent} {m : Serial.MMap} (h : readMMap env e = some m) :
    m.filename.length ≤ e.payload.length ∧ ∀ x, m.buildId = some x → x.length ≤ 40 := by
  unfold readMMap at h
  simp only [Option.bind_eq_bind, Option.bind_eq_some_iff] at h
  obtain ⟨a, h1, b, -, c, h3, d, h4, f, h5, g, hg, h⟩ := h
  cases h
  exact ⟨cstr_small hg, fun x hx => by cases hx⟩

theorem readMMap2_small {env : Serial.Env} {e : RawEvent} {m : Serial.MMap} (h : readMMap2 env e = some (some m)) :
    m.filename.length ≤ e.payload.length ∧ ∀ x, m.buildId = some x → x.length ≤ 40 := by
  unfold readMMap2 at h
  simp only [Option.bind_eq_bind, Option.bind_eq_some_iff] at h
  obtain ⟨a, h1, b, -, c, h3, d, h4, f, h5, h⟩ := h
  split at h
  · rw [Option.bind_eq_some_iff] at h
    obtain ⟨n, -, h⟩ := h
    split at h
    · cases h
    · simp only [Option.bind_eq_some_iff] at h
      obtain ⟨x, hx, p, -, q, -, r, hr, h⟩ := h
      cases h
      refine ⟨cstr_small hr, fun y hy => ?_⟩
      cases hy
      have := fetch_length hx
      rw [hex_length]
      omega
  · simp only [Option.bind_eq_some_iff] at h
    obtain ⟨_, -, _, -, _, -, _, -, p, -, q, -, r, hr, h⟩ := h
    cases h
    exact ⟨cstr_small hr, fun y hy => by cases hy⟩

/-- What the body of a message of an event satisfies whose payload has `n` bytes. -/
structure SmallBody (n : Nat) (b : Body) : Prop where
  name : ∀ m, b = .mmap m → m.filename.length ≤ n
  buildId : ∀ m, b = .mmap m → ∀ x, m.buildId = some x → x.length ≤ 40
  address : ∀ s, b = .sample s → ∀ a ∈ addresses s, a < 2 ^ 64

theorem SmallBody.other {n : Nat} {b : Body} (hm : ∀ m, b ≠ .mmap m) (hs : ∀ s, b ≠ .sample s) : SmallBody n b :=
  ⟨fun m h => absurd h (hm m), fun m h => absurd h (hm m), fun s h => absurd h (hs s)⟩

theorem readBody_small {env : Serial.Env} {ser : Ser} {e : RawEvent} {b : Body} (h : readBody env ser e = some (some b)) :
    SmallBody e.payload.length b := by
  have hw : ∀ {α : Type} {x : Option α} {f : α → SampleInfo → Body}, withInfo ser e x f = some (some b) →
      (∀ a i m, f a i ≠ .mmap m) → (∀ a i k, f a i ≠ .sample k) → SmallBody e.payload.length b := by
    intro α x f h hm hk
    obtain ⟨a, i, -, rfl⟩ := withInfo_ok h
    exact .other (hm a i) (hk a i)
  have hp : ∀ {α : Type} {x : Option α} {f : α → Body}, plain x f = some (some b) →
      (∀ a m, f a ≠ .mmap m) → (∀ a k, f a ≠ .sample k) → SmallBody e.payload.length b := by
    intro α x f h hm hk
    obtain ⟨a, -, rfl⟩ := plain_ok h
    exact .other (hm a) (hk a)
  unfold readBody at h
  rcases either h with ⟨-, h⟩ | ⟨-, h⟩
  · obtain ⟨s, hs, h2⟩ := Option.map_eq_some_iff.1 h
    obtain ⟨s', rfl, h3⟩ := Option.map_eq_some_iff.1 h2
    subst h3
    exact ⟨fun _ h => (by cases h), fun _ h => (by cases h), fun s h => by cases h; exact readSample_small hs⟩
  rcases either h with ⟨-, h⟩ | ⟨-, h⟩
  · obtain ⟨a, i, hx, rfl⟩ := withInfo_ok h
    obtain ⟨k1, k2⟩ := readMMap_small hx
    exact ⟨fun m hm => (by cases hm; exact k1), fun m hm => (by cases hm; exact k2), fun _ h => by cases h⟩
  rcases either h with ⟨-, h⟩ | ⟨-, h⟩
  · cases hx : readMMap2 env e with
    | none => rw [hx] at h; cases h
    | some y =>
      cases y with
      | none => rw [hx] at h; cases h
      | some m =>
        rw [hx] at h
        obtain ⟨a, i, ha, rfl⟩ := withInfo_ok h
        cases ha
        obtain ⟨k1, k2⟩ := readMMap2_small hx
        exact ⟨fun m hm => (by cases hm; exact k1), fun m hm => (by cases hm; exact k2), fun _ h => by cases h⟩
  rcases either h with ⟨-, h⟩ | ⟨-, h⟩
  · exact hw h (fun _ _ _ h => by cases h) (fun _ _ _ h => by cases h)
  rcases either h with ⟨-, h⟩ | ⟨-, h⟩
  · exact hw h (fun _ _ _ h => by cases h) (fun _ _ _ h => by cases h)
  rcases either h with ⟨-, h⟩ | ⟨-, h⟩
  · exact hw h (fun _ _ _ h => by cases h) (fun _ _ _ h => by cases h)
  rcases either h with ⟨-, h⟩ | ⟨-, h⟩
  · exact hw h (fun _ _ _ h => by cases h) (fun _ _ _ h => by cases h)
  rcases either h with ⟨-, h⟩ | ⟨-, h⟩
  · exact hw h (fun _ _ _ h => by cases h) (fun _ _ _ h => by cases h)
  rcases either h with ⟨-, h⟩ | ⟨-, h⟩
  · exact hw h (fun _ _ _ h => by cases h) (fun _ _ _ h => by cases h)
  rcases either h with ⟨-, h⟩ | ⟨-, h⟩
  · exact hw h (fun _ _ _ h => by cases h) (fun _ _ _ h => by cases h)
  rcases either h with ⟨-, h⟩ | ⟨-, h⟩
  · exact hw h (fun _ _ _ h => by cases h) (fun _ _ _ h => by cases h)
  rcases either h with ⟨-, h⟩ | ⟨-, h⟩
  · exact hw h (fun _ _ _ h => by cases h) (fun _ _ _ h => by cases h)
  rcases either h with ⟨-, h⟩ | ⟨-, h⟩
  · exact hw h (fun _ _ _ h => by cases h) (fun _ _ _ h => by cases h)
  rcases either h with ⟨-, h⟩ | ⟨-, h⟩
  · exact hw h (fun _ _ _ h => by cases h) (fun _ _ _ h => by cases h)
  rcases either h with ⟨-, h⟩ | ⟨-, h⟩
  · exact hw h (fun _ _ _ h => by cases h) (fun _ _ _ h => by cases h)
  rcases either h with ⟨-, h⟩ | ⟨-, h⟩
  · exact hw h (fun _ _ _ h => by cases h) (fun _ _ _ h => by cases h)
  rcases either h with ⟨-, h⟩ | ⟨-, h⟩
  · exact hp h (fun _ _ h => by cases h) (fun _ _ h => by cases h)
  rcases either h with ⟨-, h⟩ | ⟨-, h⟩
  · exact hp h (fun _ _ h => by cases h) (fun _ _ h => by cases h)
  rcases either h with ⟨-, h⟩ | ⟨-, h⟩
  · exact hp h (fun _ _ h => by cases h) (fun _ _ h => by cases h)
  rcases either h with ⟨-, h⟩ | ⟨-, h⟩
  · exact hp h (fun _ _ h => by cases h) (fun _ _ h => by cases h)
  rcases either h with ⟨-, h⟩ | ⟨-, h⟩
  · exact hp h (fun _ _ h => by cases h) (fun _ _ h => by cases h)
  rcases either h with ⟨-, h⟩ | ⟨-, h⟩
  · exact hp h (fun _ _ h => by cases h) (fun _ _ h => by cases h)
  rcases either h with ⟨-, h⟩ | ⟨-, h⟩
  · exact hp h (fun _ _ h => by cases h) (fun _ _ h => by cases h)
  rcases either h with ⟨-, h⟩ | ⟨-, h⟩
  · exact hp h (fun _ _ h => by cases h) (fun _ _ h => by cases h)
  rcases either h with ⟨-, h⟩ | ⟨-, h⟩
  · exact hp h (fun _ _ h => by cases h) (fun _ _ h => by cases h)
  cases h
  exact .other (fun _ h => by cases h) (fun _ h => by cases h)

theorem sized_from : FromEvents Sized := by
  refine ⟨fun {env ser e m} he _ h => ?_, fun _ _ hm => ⟨hm.size, fun _ h => (by cases h), fun _ h => (by cases h), fun _ h => by cases h⟩⟩
  unfold serialize at h
  split at h
  · cases h
  · cases h
  · rename_i hb
    obtain ⟨k1, k2, k3⟩ := readBody_small hb
    cases h
    refine ⟨he, fun b hb => Nat.lt_of_le_of_lt (k1 b hb) ?_, k2, k3⟩
    unfold RawEvent.size at he
    omega

/-- Every message read from any bytes is of bounded size. -/
theorem read_sized {cfg : Cfg} {b : Serial.Bytes} {st : Data.St} (h : readBytes cfg b = some (some st)) : AllHave Sized st :=
  read_all sized_from h

end Verif.Whole
