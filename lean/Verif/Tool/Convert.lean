import Verif.Tool.ConvArgs
import Verif.Tool.MessageEx

/-!
# What `perf_converter` does to files
-/

namespace Verif.Tool
open Verif.Serial (Msg)
open Verif.Whole (Machine Steady Tidy Timeline touch ordered)

/-! ## Specification -/

/-- The bytes are an input of the format, and the reader then holds `h`. -/
def Reads (M : Machine) (C : Codec) (format b : Bytes) (h : Held) : Prop :=
  (format = ascii "perf" ∧ readRecording M b = some (some h)) ∨
  (format = ascii "text" ∧ ∃ m, C.ofText b = some m ∧ deserialize M m = some (some h)) ∨
  (format = ascii "proto" ∧ ∃ m, C.ofBinary b = some m ∧ deserialize M m = some (some h))

/-- What is written of what the reader holds, after the parser has run with the options. A message has the time 0. -/
def Makes (M : Machine) (C : Codec) (o : ParseOpts) (format : Bytes) (h : Held) (out : Bytes) : Prop :=
  ∃ h' s, parseHeld M o h = some (h', s) ∧
    ((format = ascii "perf" ∧ writeHeld M h' = some (some out)) ∨
     (format = ascii "text" ∧ out = C.text ⟨h'.msg.info, h'.msg.events, some ⟨s.samples, s.mmaps, s.forks, s.exits, o.remap, s.mapped⟩, some 0⟩) ∨
     (format = ascii "proto" ∧ out = C.binary ⟨h'.msg.info, h'.msg.events, some ⟨s.samples, s.mmaps, s.forks, s.exits, o.remap, s.mapped⟩, some 0⟩))

/-! ## Proof -/

theorem formats_ne : ascii "perf" ≠ ascii "text" ∧ ascii "perf" ≠ ascii "proto" ∧ ascii "text" ≠ ascii "proto" ∧ ascii "text" ≠ ascii "perf" ∧
    ascii "proto" ≠ ascii "perf" ∧ ascii "proto" ≠ ascii "text" := by decide

theorem buffer_only (P : Place) (block : Nat) (f : Files) (name b : Bytes) {n : Nat} (hn : n ≠ P.file name) :
    (bufferToFile P block f name b).2 n = f n := by
  unfold bufferToFile
  split
  · exact if_neg hn
  · rfl

theorem buffer_no (P : Place) (block : Nat) (f : Files) (name b : Bytes) (h : (bufferToFile P block f name b).1.exit = .failure) :
    (bufferToFile P block f name b).2 = f := by
  unfold bufferToFile at h ⊢
  split
  · rename_i hw
    rw [if_pos hw] at h
    split at h <;> cases h
  · rfl

theorem buffer_yes {P : Place} {block : Nat} {f g : Files} {name b : Bytes} :
    ((bufferToFile P block f name b).1.exit, (bufferToFile P block f name b).2) = (Exit.success, g) ↔
      P.writable (P.file name) = true ∧ b.length / block * block ≤ P.room (P.file name) ∧ g = f.put (P.file name) (b.take (P.room (P.file name))) := by
  unfold bufferToFile
  by_cases hw : P.writable (P.file name) = true
  · rw [if_pos hw]
    simp only [hw, true_and]
    by_cases hr : P.room (P.file name) < b.length / block * block
    · rw [if_pos hr]
      constructor
      · intro h; cases h
      · rintro ⟨h, -⟩; omega
    · rw [if_neg hr]
      constructor
      · intro h
        cases h
        exact ⟨by omega, rfl⟩
      · rintro ⟨-, rfl⟩
        rfl
  · rw [if_neg hw]
    constructor
    · intro h; cases h
    · rintro ⟨h, -⟩; exact absurd h hw

theorem write_only (M : Machine) (C : Codec) (P : Place) (block : Nat) (f : Files) (output : Spot) (o : ParseOpts) (h : Held) {n : Nat}
    (hn : n ≠ P.file output.filename) : (writeOutput M C P block f output o h).2 n = f n := by
  unfold writeOutput
  split
  · rfl
  · split
    · split
      · rfl
      · rfl
      · exact buffer_only _ _ _ _ _ hn
    · split
      · exact buffer_only _ _ _ _ _ hn
      · rfl

theorem write_no {M : Machine} {C : Codec} {P : Place} {block : Nat} {f : Files} {output : Spot} {o : ParseOpts} {h : Held}
    (he : (writeOutput M C P block f output o h).1 = .failure) : (writeOutput M C P block f output o h).2 = f := by
  unfold writeOutput at he ⊢
  match hp : parseHeld M o h with
  | none => rfl
  | some (h', s) =>
    rw [hp] at he
    simp only at he ⊢
    by_cases h1 : output.format = ascii "perf"
    · rw [if_pos h1] at he ⊢
      match hw : writeHeld M h' with
      | none => rfl
      | some none => rfl
      | some (some b) =>
        rw [hw] at he
        exact buffer_no _ _ _ _ _ he
    · rw [if_neg h1] at he ⊢
      by_cases h2 : output.format = ascii "text" ∨ output.format = ascii "proto"
      · rw [if_pos h2] at he ⊢
        exact buffer_no _ _ _ _ _ he
      · rw [if_neg h2]

theorem write_yes {M : Machine} {C : Codec} {P : Place} {block : Nat} {f g : Files} {output : Spot} {o : ParseOpts} {h : Held} :
    writeOutput M C P block f output o h = (.success, g) ↔ ∃ out, Makes M C o output.format h out ∧ P.writable (P.file output.filename) = true ∧
      out.length / block * block ≤ P.room (P.file output.filename) ∧ g = f.put (P.file output.filename) (out.take (P.room (P.file output.filename))) := by
  obtain ⟨n1, n2, n3, n4, n5, n6⟩ := formats_ne
  unfold writeOutput Makes
  match hp : parseHeld M o h with
  | none =>
    constructor
    · intro h; cases h
    · rintro ⟨out, ⟨h', s, h, -⟩, -⟩; cases h
  | some (h', s) =>
    simp only [Option.some.injEq, Prod.mk.injEq]
    by_cases h1 : output.format = ascii "perf"
    · rw [if_pos h1]
      match hw : writeHeld M h' with
      | none =>
        constructor
        · intro h; cases h
        · rintro ⟨out, ⟨_, _, ⟨rfl, rfl⟩, h | h | h⟩, -⟩
          · rw [hw] at h; cases h.2
          · exact absurd (h1.symm.trans h.1) n1
          · exact absurd (h1.symm.trans h.1) n2
      | some none =>
        constructor
        · intro h; cases h
        · rintro ⟨out, ⟨_, _, ⟨rfl, rfl⟩, h | h | h⟩, -⟩
          · rw [hw] at h; cases h.2
          · exact absurd (h1.symm.trans h.1) n1
          · exact absurd (h1.symm.trans h.1) n2
      | some (some b) =>
        simp only
        rw [buffer_yes]
        constructor
        · intro k
          exact ⟨b, ⟨h', s, ⟨rfl, rfl⟩, .inl ⟨h1, hw⟩⟩, k⟩
        · rintro ⟨out, ⟨_, _, ⟨rfl, rfl⟩, h | h | h⟩, k⟩
          · rw [hw] at h; cases h.2; exact k
          · exact absurd (h1.symm.trans h.1) n1
          · exact absurd (h1.symm.trans h.1) n2
    · rw [if_neg h1]
      by_cases h2 : output.format = ascii "text"
      · rw [if_pos (.inl h2), if_pos h2, buffer_yes]
        constructor
        · intro k
          exact ⟨_, ⟨h', s, ⟨rfl, rfl⟩, .inr (.inl ⟨h2, rfl⟩)⟩, k⟩
        · rintro ⟨out, ⟨_, _, ⟨rfl, rfl⟩, h | h | h⟩, k⟩
          · exact absurd h.1 h1
          · rw [h.2] at k; exact k
          · exact absurd (h2.symm.trans h.1) n3
      · by_cases h3 : output.format = ascii "proto"
        · rw [if_pos (.inr h3), if_neg h2, buffer_yes]
          constructor
          · intro k
            exact ⟨_, ⟨h', s, ⟨rfl, rfl⟩, .inr (.inr ⟨h3, rfl⟩)⟩, k⟩
          · rintro ⟨out, ⟨_, _, ⟨rfl, rfl⟩, h | h | h⟩, k⟩
            · exact absurd h.1 h1
            · exact absurd h.1 h2
            · rw [h.2] at k; exact k
        · rw [if_neg (not_or.2 ⟨h2, h3⟩)]
          constructor
          · intro h; cases h
          · rintro ⟨out, ⟨_, _, ⟨rfl, rfl⟩, h | h | h⟩, -⟩
            · exact absurd h.1 h1
            · exact absurd h.1 h2
            · exact absurd h.1 h3

/-- What is read. -/
theorem read_yes {M : Machine} {C : Codec} {P : Place} {f : Files} {input : Spot} {h : Held} {o : ParseOpts} :
    readInput M C P f input = (some (some h), o) ↔ ∃ base ∈ formats, ∃ s ∈ suffixes, ∃ b, input.format = base ++ s.1 ∧ o = s.2 ∧
      readFile P f input.filename = some b ∧ Reads M C base b h := by
  obtain ⟨n1, n2, n3, n4, n5, n6⟩ := formats_ne
  have hf : ∀ b, b ∈ formats ↔ b = ascii "perf" ∨ b = ascii "text" ∨ b = ascii "proto" := by
    intro b
    simp only [formats, List.mem_cons, List.not_mem_nil, or_false]
  unfold readInput
  constructor
  · intro k
    obtain ⟨⟨base, o'⟩, hpf⟩ : ∃ x, parseFormat input.format = x := ⟨_, rfl⟩
    rw [hpf] at k
    simp only [Prod.mk.injEq] at k
    obtain ⟨k, rfl⟩ := k
    have fin : base ∈ formats → (∃ b, readFile P f input.filename = some b ∧ Reads M C base b h) → ∃ base ∈ formats, ∃ s ∈ suffixes, ∃ b,
        input.format = base ++ s.1 ∧ o' = s.2 ∧ readFile P f input.filename = some b ∧ Reads M C base b h := by
      rintro hb ⟨b, h1, h2⟩
      obtain ⟨s, hs, e1, e2⟩ := (input_formats hb).1 hpf
      exact ⟨base, hb, s, hs, b, e1, e2, h1, h2⟩
    by_cases h1 : base = ascii "perf"
    · rw [if_pos h1] at k
      refine fin ((hf _).2 (.inl h1)) ?_
      match hr : readFile P f input.filename with
      | none => rw [hr] at k; cases k
      | some b => rw [hr] at k; exact ⟨b, rfl, .inl ⟨h1, k⟩⟩
    · rw [if_neg h1] at k
      by_cases h2 : base = ascii "text" ∨ base = ascii "proto"
      · rw [if_pos h2] at k
        refine fin ((hf _).2 (.inr h2)) ?_
        match hr : readFile P f input.filename with
        | none => rw [hr] at k; cases k
        | some b =>
          rw [hr] at k
          simp only at k
          refine ⟨b, rfl, ?_⟩
          by_cases h3 : base = ascii "text"
          · rw [if_pos h3] at k
            match hm : C.ofText b with
            | none => rw [hm] at k; cases k
            | some m => rw [hm] at k; exact .inr (.inl ⟨h3, m, hm, k⟩)
          · rw [if_neg h3] at k
            match hm : C.ofBinary b with
            | none => rw [hm] at k; cases k
            | some m => rw [hm] at k; exact .inr (.inr ⟨h2.resolve_left h3, m, hm, k⟩)
      · rw [if_neg h2] at k
        cases k
  · rintro ⟨base, hb, s, hs, b, e1, rfl, e3, e4⟩
    rw [(input_formats hb).2 ⟨s, hs, e1, rfl⟩]
    simp only [e3]
    rcases e4 with ⟨rfl, e4⟩ | ⟨rfl, m, e4, e5⟩ | ⟨rfl, m, e4, e5⟩
    · rw [if_pos rfl, e4]
    · rw [if_neg n4, if_pos (.inl rfl), if_pos rfl, e4]
      simp only [e5]
    · rw [if_neg n5, if_pos (.inr rfl), if_neg n6, e4]
      simp only [e5]

section
variable {M : Machine} {C : Codec} {P : Place} {block : Nat} {f : Files} {words : List Bytes}

/-- C120: `perf_converter` changes no file but the output. -/
theorem converter_only_output {n : Nat} (hn : ∀ a, convArguments words = some a → n ≠ P.file a.2.filename) :
    (perfConverter M C P block f words).2 n = f n := by
  unfold perfConverter
  match ha : convArguments words with
  | none => rfl
  | some (input, output) =>
    have := hn _ ha
    simp only
    unfold convertFile
    split
    · rfl
    · rfl
    · exact write_only _ _ _ _ _ _ _ _ this

/-- C120: if it reports a failure, it has changed none. -/
theorem converter_failure_keeps (he : (perfConverter M C P block f words).1 = .failure) : (perfConverter M C P block f words).2 = f := by
  unfold perfConverter at he ⊢
  match ha : convArguments words with
  | none => rfl
  | some (input, output) =>
    rw [ha] at he
    simp only at he ⊢
    unfold convertFile at he ⊢
    match hr : readInput M C P f input with
    | (none, _) => rfl
    | (some none, _) => rfl
    | (some (some h), o) =>
      rw [hr] at he
      exact write_no he

/-- C120: it reports success exactly if the arguments and formats are right, the input can be read in its format, what it holds can be written in the
format of the output, and the output can be written and is long enough for all whole blocks. Then the output holds what is to be written, as far as it
fits. -/
theorem converter_success {g : Files} : perfConverter M C P block f words = (.success, g) ↔
    ∃ input output, convArguments words = some (input, output) ∧ ∃ base ∈ formats, ∃ s ∈ suffixes, ∃ b h out, input.format = base ++ s.1 ∧
      readFile P f input.filename = some b ∧ Reads M C base b h ∧ Makes M C s.2 output.format h out ∧ P.writable (P.file output.filename) = true ∧
      out.length / block * block ≤ P.room (P.file output.filename) ∧
      g = f.put (P.file output.filename) (out.take (P.room (P.file output.filename))) := by
  unfold perfConverter
  match ha : convArguments words with
  | none =>
    constructor
    · intro h; cases h
    · rintro ⟨_, _, h, -⟩; cases h
  | some (input, output) =>
    simp only [Option.some.injEq, Prod.mk.injEq]
    unfold convertFile
    constructor
    · intro k
      match hr : readInput M C P f input with
      | (none, _) => rw [hr] at k; cases k
      | (some none, _) => rw [hr] at k; cases k
      | (some (some h), o) =>
        rw [hr] at k
        obtain ⟨out, k1, k2⟩ := write_yes.1 k
        obtain ⟨base, hb, s, hs, b, e1, rfl, e3, e4⟩ := read_yes.1 hr
        exact ⟨input, output, ⟨rfl, rfl⟩, base, hb, s, hs, b, h, out, e1, e3, e4, k1, k2⟩
    · rintro ⟨_, _, ⟨rfl, rfl⟩, base, hb, s, hs, b, h, out, e1, e3, e4, k1, k2⟩
      rw [read_yes.2 ⟨base, hb, s, hs, b, e1, rfl, e3, e4⟩]
      exact write_yes.2 ⟨out, k1, k2⟩

/-- C120: a recording that can be read and whose mappings are in order is turned into text or a message: it is the one that `SerializeFromFile` makes
at the time 0. -/
theorem converter_message (hM : ∀ l, (M.order l).Perm l) (hk : ∃ k, k ≤ 60 ∧ M.page = 2 ^ k) {input output : Spot} {s : Bytes × ParseOpts}
    (ha : convArguments words = some (input, output)) (hs : s ∈ suffixes) (hi : input.format = ascii "perf" ++ s.1) (hd : s.2.discard = false)
    (ho : output.format = ascii "text" ∨ output.format = ascii "proto") {b : Bytes} (hb : readFile P f input.filename = some b) {st : Data.St}
    (hst : File.readBytes { env := M.env } b = some (some st)) (ht : Tidy M.page st.events) (hw : P.writable (P.file output.filename) = true)
    (hroom : ∀ m, serializeFrom M s.2 0 b = some (some m) → (C.text m).length ≤ P.room (P.file output.filename) ∧
      (C.binary m).length ≤ P.room (P.file output.filename)) :
    ∃ m, serializeFrom M s.2 0 b = some (some m) ∧ perfConverter M C P block f words =
      (.success, f.put (P.file output.filename) (if output.format = ascii "text" then C.text m else C.binary m)) := by
  obtain ⟨m, hm⟩ := message_made hM hk hd 0 hst ht
  refine ⟨m, hm, ?_⟩
  obtain ⟨r1, r2⟩ := hroom m hm
  obtain ⟨n1, n2, n3, n4, n5, n6⟩ := formats_ne
  have h := hm
  unfold serializeFrom at h
  match hr : readRecording M b with
  | none => rw [hr] at h; cases h
  | some none => rw [hr] at h; cases h
  | some (some held) =>
    rw [hr] at h
    obtain ⟨⟨h', st'⟩, hp, e⟩ := Option.map_eq_some_iff.1 h
    have e := Option.some.inj e
    have hfit : ∀ {x : Bytes}, x.length ≤ P.room (P.file output.filename) → x.length / block * block ≤ P.room (P.file output.filename) ∧
        x.take (P.room (P.file output.filename)) = x := fun h => ⟨Nat.le_trans (Nat.div_mul_le_self ..) h, List.take_of_length_le h⟩
    rcases ho with ho | ho
    · rw [if_pos ho]
      refine converter_success.2 ⟨input, output, ha, ascii "perf", by decide, s, hs, b, held, C.text m, hi, hb, .inl ⟨rfl, hr⟩, ?_, hw, (hfit r1).1,
        by rw [(hfit r1).2]⟩
      exact ⟨h', st', hp, .inr (.inl ⟨ho, by rw [← e]; rfl⟩)⟩
    · rw [if_neg (by rw [ho]; exact n6)]
      refine converter_success.2 ⟨input, output, ha, ascii "perf", by decide, s, hs, b, held, C.binary m, hi, hb, .inl ⟨rfl, hr⟩, ?_, hw, (hfit r2).1,
        by rw [(hfit r2).2]⟩
      exact ⟨h', st', hp, .inr (.inr ⟨ho, by rw [← e]; rfl⟩)⟩

end

/-! ## By way of a message -/

/-- A recording whose mappings are not changed goes to the parser as it is. -/
theorem parse_steady (M : Machine) (O : Parser.Opts) (sort huge comb : Bool) (i : Meta.Info) {l : List Msg} (hs : Steady l)
    (hk : ∀ m ∈ l, Whole.Kind m) : Whole.parseEvents M O sort huge comb i l =
      (Parser.parse O (Whole.views Whole.parserView 0 (ordered sort i l))).map (Whole.parsed (ordered sort i l)) := by
  rw [Whole.parseEvents_eq]
  have hp := Whole.ordered_perm sort i l
  change (if huge = true then Whole.deduce M (ordered sort i l) else some (ordered sort i l)).bind _ = _
  have hs1 := hs.perm hp
  have hk1 : ∀ m ∈ ordered sort i l, Whole.Kind m := fun m hm => hk m (hp.mem_iff.1 hm)
  generalize ordered sort i l = t at hs1 hk1
  have e1 : (if huge = true then Whole.deduce M t else some t) = some t := by
    split
    · exact Whole.deduce_same hs1 hk1
    · rfl
  have e2 : (if comb = true then Whole.combine t else t) = t := by
    split
    · exact Whole.combine_same hs1 hk1
    · rfl
  rw [e1, Option.bind_some, e2]
  cases Parser.parse O (Whole.views Whole.parserView 0 t) <;> rfl

/-- What is in order stays as it is. -/
theorem ordered_twice (i : Meta.Info) (l : List Msg) : ordered true i (ordered true i l) = ordered true i l := by
  have h : Timeline i.attrs l (ordered true i l) := Whole.sort_timeline i l
  refine (Whole.timeline_sort (i := i) (l := ordered true i l) ?_).symm
  rcases h with ⟨h1, h2, -⟩ | ⟨h1, -⟩
  · exact .inl ⟨h1, h2, fun _ => rfl⟩
  · exact .inr ⟨h1, rfl⟩

/-- What the parser has left, it leaves as it is. -/
theorem parse_twice {M : Machine} {O : Parser.Opts} (hr : O.remap = false) (hd : O.discard = false) (huge comb : Bool) {i : Meta.Info} {l : List Msg}
    (hs : Steady l) (hk : ∀ m ∈ l, Whole.Kind m) (hsh : ∀ m ∈ l, Whole.Shaped m) (hip : ∀ m ∈ l, ∀ s, m.body = .sample s → s.ip ≠ none)
    {r : List Msg × Parser.Stats} (h : Whole.parseEvents M O true huge comb i l = some r) :
    r.1 = ordered true i l ∧ Whole.parseEvents M O true huge comb i r.1 = some r := by
  have hp := Whole.ordered_perm true i l
  rw [parse_steady M O true huge comb i hs hk] at h
  obtain ⟨P, h1, h2⟩ := Option.map_eq_some_iff.1 h
  have ht := Whole.parsed_touch hr hd (fun m hm => hsh m (hp.mem_iff.1 hm)) h1
  rw [h2] at ht
  have ht' : (ordered true i l).map touch = ordered true i l := by
    conv => rhs; rw [← List.map_id (ordered true i l)]
    exact List.map_congr_left fun m hm => touch_addressed (hip m (hp.mem_iff.1 hm))
  rw [ht'] at ht
  refine ⟨ht, ?_⟩
  rw [ht, parse_steady M O true huge comb i (hs.perm hp) (fun m hm => hk m (hp.mem_iff.1 hm)), ordered_twice, h1, Option.map_some, h2]

/-- C120: a recording, a message made of it, and anything made of that message: it is what is made of the recording at once. The first run writes the
message to `b`; whatever the second makes of `b`, text, a message or a recording again, the third makes of the recording. -/
theorem converter_via {M : Machine} {C : Codec} {P : Place} {block : Nat} {f g : Files} {w1 w2 w3 : List Bytes} {a b : Bytes} {mid : Bytes} {output : Spot}
    {x : File.Recording} (hx : File.Complete M.env x) (hs : Steady x.messages) (hip : ∀ m ∈ x.messages, ∀ s, m.body = .sample s → s.ip ≠ none)
    (hC : ∀ m, serializeFrom M {} 0 (File.fileImage x) = some (some m) → C.ofText (C.text m) = some m ∧ C.ofBinary (C.binary m) = some m)
    (hmid : mid = ascii "text" ∨ mid = ascii "proto")
    (h1 : convArguments w1 = some (⟨a, ascii "perf"⟩, ⟨b, mid⟩)) (h2 : convArguments w2 = some (⟨b, mid⟩, output))
    (h3 : convArguments w3 = some (⟨a, ascii "perf"⟩, output)) (hab : P.file b ≠ P.file a) (ha : f (P.file a) = some (File.fileImage x))
    (hrb : P.readable (P.file b) = true) (hrun : perfConverter M C P block f w1 = (.success, g))
    (hfull : ∀ y, g (P.file b) = some y → y.length < P.room (P.file b)) :
    perfConverter M C P block g w2 = perfConverter M C P block g w3 := by
  obtain ⟨n1, n2, n3, n4, n5, n6⟩ := formats_ne
  have keep := converter_only_output (M := M) (C := C) (P := P) (block := block) (f := f) (words := w1) (n := P.file a)
    (by intro a' ha'; rw [h1] at ha'; cases ha'; exact fun h => hab h.symm)
  rw [hrun] at keep
  have keep : g (P.file a) = some (File.fileImage x) := keep.trans ha
  obtain ⟨input, out', k0, base, hb, s, hsu, bb, h, out, e1, e2, e3, e4, e5, e6, e7⟩ := converter_success.1 hrun
  rw [h1] at k0
  cases k0
  -- the format of the input is that of recordings
  have hpf : parseFormat (ascii "perf") = (ascii "perf", {}) := by decide
  have hbs : base = ascii "perf" ∧ s.2 = {} := by
    have := (input_formats hb).2 ⟨s, hsu, e1, rfl⟩
    rw [hpf] at this
    exact ⟨(congrArg Prod.fst this).symm, (congrArg Prod.snd this).symm⟩
  obtain ⟨rfl, hs2⟩ := hbs
  rw [hs2] at e4
  have hread : readFile P f a = some (File.fileImage x) ∧ P.readable (P.file a) = true := by
    unfold readFile at e2 ⊢
    split at e2
    · rename_i hra
      rw [if_pos hra]
      exact ⟨ha, hra⟩
    · cases e2
  have e2 : some (File.fileImage x) = some bb := hread.1.symm.trans e2
  cases e2
  have e3 : readRecording M (File.fileImage x) = some (some h) := by
    rcases e3 with ⟨-, e3⟩ | ⟨e3, -⟩ | ⟨e3, -⟩
    · exact e3
    · exact absurd e3 n1
    · exact absurd e3 n2
  -- what the reader holds
  obtain ⟨st, r1, r2, r3, -, r5⟩ := File.read_image (cfg := { env := M.env }) hx rfl (tail := []) (by rw [List.append_nil]; have := hx.size; omega)
  rw [List.append_nil] at r1
  have eh : h = ⟨⟨st.base.info, st.events, none, none⟩, st.base.ser⟩ := by
    have := e3
    unfold readRecording at this
    rw [r1] at this
    cases this
    rfl
  subst eh
  obtain ⟨h', stats, p1, p2⟩ := e4
  have p1' := p1
  unfold parseHeld at p1
  obtain ⟨r, q1, q2⟩ := Option.map_eq_some_iff.1 p1
  simp only at q1
  cases q2
  have hsh := Whole.read_shaped r1
  have hki := Whole.read_kind r1
  have hs' : Steady st.events := by rw [r2]; exact hs
  have hip' : ∀ m ∈ st.events, ∀ s, m.body = .sample s → s.ip ≠ none := by rw [r2]; exact hip
  obtain ⟨t1, t2⟩ := parse_twice (O := ({} : ParseOpts).parser M.page) rfl rfl true true hs' hki hsh hip' q1
  have hp := Whole.ordered_perm true st.base.info st.events
  -- the message
  obtain ⟨m, hm⟩ : ∃ m : Message, m = ⟨st.base.info, r.1, some ⟨r.2.samples, r.2.mmaps, r.2.forks, r.2.exits, false, r.2.mapped⟩, some 0⟩ := ⟨_, rfl⟩
  have hser : serializeFrom M {} 0 (File.fileImage x) = some (some m) := by
    rw [serialize_of r1, show Whole.parseEvents M (({} : ParseOpts).parser M.page) ({} : ParseOpts).sort ({} : ParseOpts).huge ({} : ParseOpts).combine
      st.base.info st.events = some r from q1, hm]
    rfl
  obtain ⟨c1, c2⟩ := hC m hser
  have hde : deserialize M m = some (some ⟨m, st.base.ser⟩) := by
    unfold deserialize
    have e5 : register {} m.info.attrs = some st.base.ser := by
      rw [register_all, hm]
      exact (show Attr.registerAll {} false (st.base.info.attrs.map Attr.deserializeFileAttr) = some st.base.ser by rw [r3]; exact r5)
    rw [e5]
    simp only
    rw [fillSizes_full]
    · rfl
    · intro m' hm'
      rw [hm] at hm'
      simp only at hm'
      rw [t1] at hm'
      have hm' := hp.mem_iff.1 hm'
      rw [r2] at hm'
      obtain ⟨e, he, rfl⟩ := List.mem_map.1 hm'
      exact event_size (hx.events e he)
  have hout : out = if mid = ascii "text" then C.text m else C.binary m := by
    rcases p2 with ⟨e, -⟩ | ⟨e, p2⟩ | ⟨e, p2⟩
    · rcases hmid with rfl | rfl
      · exact absurd e n4
      · exact absurd e n5
    · rw [if_pos e, p2, hm]
    · rw [if_neg (by rw [show mid = ascii "proto" from e]; exact n6), p2, hm]
  have hgb : g (P.file b) = some out := by
    have : g (P.file b) = some (out.take (P.room (P.file b))) := by
      rw [e7]
      unfold Files.put
      rw [if_pos rfl]
    have hl := hfull _ this
    rw [List.length_take] at hl
    rw [this, List.take_of_length_le (by omega)]
  -- the two runs
  have i2 : readInput M C P g ⟨b, mid⟩ = (some (some ⟨m, st.base.ser⟩), {}) := by
    refine read_yes.2 ⟨mid, ?_, ([], {}), by decide, out, by simp, rfl, ?_, ?_⟩
    · rcases hmid with rfl | rfl <;> decide
    · unfold readFile
      rw [if_pos hrb, hgb]
    · rcases hmid with rfl | rfl
      · rw [if_pos rfl] at hout
        exact .inr (.inl ⟨rfl, m, by rw [hout]; exact c1, hde⟩)
      · rw [if_neg n6] at hout
        exact .inr (.inr ⟨rfl, m, by rw [hout]; exact c2, hde⟩)
  have i3 : readInput M C P g ⟨a, ascii "perf"⟩ = (some (some ⟨⟨st.base.info, st.events, none, none⟩, st.base.ser⟩), {}) := by
    refine read_yes.2 ⟨ascii "perf", by decide, ([], {}), by decide, File.fileImage x, by simp, rfl, ?_, .inl ⟨rfl, e3⟩⟩
    unfold readFile
    rw [if_pos hread.2, keep]
  unfold perfConverter
  rw [h2, h3]
  simp only
  unfold convertFile
  rw [i2, i3]
  simp only
  unfold writeOutput
  have j2 : parseHeld M {} ⟨m, st.base.ser⟩ = some (⟨m, st.base.ser⟩, r.2) := by
    unfold parseHeld
    simp only [hm]
    rw [show Whole.parseEvents M (({} : ParseOpts).parser M.page) ({} : ParseOpts).sort ({} : ParseOpts).huge ({} : ParseOpts).combine
      st.base.info r.1 = some r from t2]
    rfl
  rw [j2, p1']
  simp only [writeHeld, serializeStats, serialize, hm]

/-! ## Examples -/

section
open Verif.File (fileImage exRecording)
open Verif.Whole (exMachine steady_of)
open Verif.Serial (exEnv)

/-- A way to write one message, in three bytes or in seven. -/
def exCodec (m : Message) : Codec := ⟨fun _ => ascii "message", fun _ => some m, fun _ => [1, 2, 3], fun _ => some m⟩

/-- The message of the recording. -/
def exMessage : Message := ((serializeFrom exMachine {} 0 (fileImage exRecording)).bind id).getD ⟨{}, [], none, none⟩

/-- A message is made of the recording: `-iin -oout -Oproto`. -/
theorem ex_converted : ∃ m, serializeFrom exMachine {} 0 (fileImage exRecording) = some (some m) ∧
    perfConverter exMachine (exCodec exMessage) (exPlace 10) 4 (exFiles (fileImage exRecording)) [ascii "-iin", ascii "-oout", ascii "-Oproto"] =
      (.success, (exFiles (fileImage exRecording)).put 3 [1, 2, 3]) := by
  obtain ⟨st, r1, r2, -⟩ := File.read_image (cfg := { env := exEnv }) File.ex_complete rfl (tail := []) (by decide +kernel)
  rw [List.append_nil] at r1
  exact converter_message (M := exMachine) (s := ([], {})) (input := ⟨ascii "in", ascii "perf"⟩) (output := ⟨ascii "out", ascii "proto"⟩)
    (fun _ => .refl _) ⟨12, by decide, rfl⟩ (by decide) (by decide) (by decide) rfl (.inr rfl) rfl r1
    (by rw [r2]; show Whole.Tidy 4096 exRecording.messages; decide +kernel) rfl (fun _ _ => ⟨show (ascii "message").length ≤ 10 by decide, show [1, 2, 3].length ≤ 10 by decide⟩)

/-- By way of a message: `in` to `out`, `out` to `new`, and `in` to `new`. -/
example : let g := (exFiles (fileImage exRecording)).put 3 [1, 2, 3]
    perfConverter exMachine (exCodec exMessage) (exPlace 10) 4 g [ascii "-iout", ascii "-Iproto", ascii "-ofile", ascii "-Operf"] =
      perfConverter exMachine (exCodec exMessage) (exPlace 10) 4 g [ascii "-iin", ascii "-ofile", ascii "-Operf"] := by
  intro g
  obtain ⟨-, -, hrun⟩ := ex_converted
  refine converter_via (a := ascii "in") (b := ascii "out") (mid := ascii "proto") (output := ⟨ascii "file", ascii "perf"⟩) (x := exRecording)
    File.ex_complete (steady_of (by decide +kernel))
    (fun m hm s hs => by
      simp only [File.Recording.messages, exRecording, List.map_cons, List.map_nil, List.mem_cons, List.not_mem_nil, or_false] at hm
      rcases hm with rfl | rfl | rfl
      · cases hs
      · cases hs; decide
      · cases hs)
    (fun m hm => ?_) (.inr rfl) (by decide) (by decide) (by decide) (by decide) rfl rfl hrun ?_
  · have : exMessage = m := by unfold exMessage; rw [hm]; rfl
    rw [← this]
    exact ⟨rfl, rfl⟩
  · intro y hy
    have hy : some [1, 2, 3] = some y := hy
    cases hy
    decide

/-- Unknown formats, a missing file, and words that are no arguments: a failure. -/
example (C : Codec) (f : Files) (hf : f 3 = none) : perfConverter exMachine C (exPlace 10) 4 f [ascii "-ix", ascii "-Iperf.fast"] = (.failure, f) ∧
    perfConverter exMachine C (exPlace 10) 4 f [ascii "-iabc"] = (.failure, f) ∧ perfConverter exMachine C (exPlace 10) 4 f [ascii "-x"] = (.failure, f) := by
  refine ⟨?_, ?_, ?_⟩
  · have : convArguments [ascii "-ix", ascii "-Iperf.fast"] = some (⟨ascii "x", ascii "perf.fast"⟩, ⟨ascii "/dev/stdout", ascii "text"⟩) := by decide
    unfold perfConverter convertFile readInput
    rw [this]
    simp only
    rw [show parseFormat (ascii "perf.fast") = ([], {}) by decide]
    rfl
  · have : convArguments [ascii "-iabc"] = some (⟨ascii "abc", ascii "perf"⟩, ⟨ascii "/dev/stdout", ascii "text"⟩) := by decide
    have h : readFile (exPlace 10) f (ascii "abc") = none := hf
    unfold perfConverter convertFile readInput
    rw [this]
    simp only
    rw [show parseFormat (ascii "perf") = (ascii "perf", {}) by decide, h]
    rfl
  · have : convArguments [ascii "-x"] = none := by decide
    unfold perfConverter
    rw [this]

/-- C120 fails if the disk is full: the program reports success although a part of the output is missing, or ends at once and leaves a part. -/
theorem converter_full_violated :
    (∃ g, perfConverter exMachine (exCodec exMessage) (exPlace 2) 4 (exFiles (fileImage exRecording)) [ascii "-iin", ascii "-oout", ascii "-Oproto"] =
      (.success, g) ∧ g 3 = some [1, 2]) ∧
    (∃ g, perfConverter exMachine (exCodec exMessage) (exPlace 2) 4 (exFiles (fileImage exRecording)) [ascii "-iin", ascii "-oout", ascii "-Otext"] =
      (.lost, g) ∧ g 3 = some (ascii "me")) := by
  have h1 : convArguments [ascii "-iin", ascii "-oout", ascii "-Oproto"] = some (⟨ascii "in", ascii "perf"⟩, ⟨ascii "out", ascii "proto"⟩) := by decide
  have h2 : convArguments [ascii "-iin", ascii "-oout", ascii "-Otext"] = some (⟨ascii "in", ascii "perf"⟩, ⟨ascii "out", ascii "text"⟩) := by decide
  have hb : ((readRecording exMachine (fileImage exRecording)).bind id).map (fun h => (parseHeld exMachine {} h).isSome) = some true := by decide +kernel
  generalize exMessage = m0
  generalize fileImage exRecording = b at *
  have hr : ∃ h, readRecording exMachine b = some (some h) ∧ (parseHeld exMachine {} h).isSome = true := by
    match hx : readRecording exMachine b with
    | none => rw [hx] at hb; cases hb
    | some none => rw [hx] at hb; cases hb
    | some (some h) => rw [hx] at hb; exact ⟨h, rfl, Option.some.inj hb⟩
  obtain ⟨h, hr, hp⟩ := hr
  obtain ⟨⟨h', s⟩, hp⟩ := Option.isSome_iff_exists.1 hp
  have hi : readInput exMachine (exCodec m0) (exPlace 2) (exFiles b) ⟨ascii "in", ascii "perf"⟩ = (some (some h), {}) :=
    read_yes.2 ⟨ascii "perf", by decide, ([], {}), by decide, b, by simp, rfl, rfl, .inl ⟨rfl, hr⟩⟩
  unfold perfConverter convertFile
  rw [h1, h2]
  simp only [hi]
  unfold writeOutput
  simp only [hp]
  have t1 : ∀ m, bufferToFile (exPlace 2) 4 (exFiles b) (ascii "out") ((exCodec m0).binary m) = (.yes, (exFiles b).put 3 [1, 2]) := by
    intro m
    unfold bufferToFile
    rw [if_pos (show (exPlace 2).writable _ = true from rfl)]
    exact Prod.ext (if_neg (show ¬ 2 < 3 / 4 * 4 by decide)) (by show (exFiles b).put (ascii "out").length _ = _; rw [show (ascii "out").length = 3 by decide]; rfl)
  have t2 : ∀ m, bufferToFile (exPlace 2) 4 (exFiles b) (ascii "out") ((exCodec m0).text m) = (.aborted, (exFiles b).put 3 (ascii "me")) := by
    intro m
    unfold bufferToFile
    rw [if_pos (show (exPlace 2).writable _ = true from rfl)]
    refine Prod.ext (if_pos (show 2 < (ascii "message").length / 4 * 4 by decide)) ?_
    show (exFiles b).put (ascii "out").length ((ascii "message").take 2) = _
    rw [show (ascii "out").length = 3 by decide, show (ascii "message").take 2 = ascii "me" by decide]
  constructor
  · rw [if_neg formats_ne.2.2.2.2.1, if_pos (.inr trivial), if_neg formats_ne.2.2.2.2.2, t1]
    exact ⟨_, rfl, rfl⟩
  · rw [if_neg formats_ne.2.2.2.1, if_pos (.inl trivial), if_pos trivial, t2]
    exact ⟨_, rfl, rfl⟩

end

end Verif.Tool
