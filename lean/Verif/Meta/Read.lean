import Verif.Meta.Lemmas
import Verif.Names.Props
import Verif.Attr.Props2
import Verif.Text.Props

/-! # Lemmas: reading each feature from its section -/

namespace Verif.Meta
open Verif.Buffer Verif.Event Verif.Sample Verif.Attr Verif.Names Verif.Text Verif.Util

/-! ## Build IDs -/

theorem hex_append (a b : Bytes) : rawDataToHexString (a ++ b) = rawDataToHexString a ++ rawDataToHexString b := by
  induction a with
  | nil => rfl
  | cons x t ih => simp [rawDataToHexString, ih]

theorem hex_zeros (n : Nat) : rawDataToHexString (List.replicate n 0) = zeros (2 * n) := by
  induction n with
  | zero => rfl
  | succ n ih =>
    rw [show 2 * (n + 1) = 2 * n + 2 by omega, List.replicate_succ', hex_append, ih, zeros, zeros,
      ← List.replicate_append_replicate]
    rfl

theorem canonical_no_group {h : Bytes} (hc : CanonicalHash h) : ¬ zeros 8 <:+ rawDataToHexString h := by
  obtain ⟨_, h2, h3⟩ := hc
  rintro ⟨t, ht⟩
  have hl := congrArg List.length ht
  rw [hex_length, List.length_append, zeros, List.length_replicate] at hl
  have e : h = h.take (h.length - 4) ++ h.drop (h.length - 4) := (List.take_append_drop ..).symm
  have e2 : rawDataToHexString (h.drop (h.length - 4)) = zeros 8 := by
    rw [e, hex_append] at ht
    have := List.append_inj' ht (by rw [zeros, List.length_replicate, hex_length, List.length_drop]; omega)
    rw [← this.2]
  apply h3
  have : rawDataToHexString (h.drop (h.length - 4)) = rawDataToHexString [0, 0, 0, 0] := by rw [e2]; rfl
  exact C15_injective _ _ this

theorem keptHash_canonical {h : Bytes} (hc : CanonicalHash h) : keptHash (zeroPad 20 h) = some h := by
  have hc' := hc
  obtain ⟨h1, h2, h3⟩ := hc
  have e : trimZeroes (rawDataToHexString (zeroPad 20 h)) = rawDataToHexString h := by
    refine (C21_trim_exact _ _).mpr ⟨⟨(20 - h.length) / 4, ?_⟩, canonical_no_group hc'⟩
    rw [zeroPad, hex_append, hex_zeros]
    congr 2; omega
  unfold keptHash
  simp only [e]
  rw [C15_roundtrip h _ 20 h1 (by simp)]
  simp only [if_true, hex_length]
  congr 1
  rw [Nat.mul_div_cancel_left _ (by decide), List.take_left]

theorem field_eq {cross : Bool} {pre post : Bytes} {n v off : Nat} (ho : pre.length = off) (hn : n = 2 ∨ n = 4 ∨ n = 8)
    (hv : v < 256 ^ n) : field cross (pre ++ (encodeInt cross n v ++ post)) off n = v := by
  subst ho
  unfold field
  rw [List.drop_left, List.take_append_of_le_length (by rw [encodeInt_length]; omega),
    List.take_of_length_le (by rw [encodeInt_length]; omega)]
  have hd := decode_encode cross (n := n) hv
  have := maybeSwap_decode (d := encodeInt cross n v) (by rw [encodeInt_length]; exact hn) cross
  rw [hd, encodeInt_length] at this
  unfold maybeSwap byteSwap at this
  cases cross
  · simpa using this
  · rcases hn with rfl | rfl | rfl <;> simpa using this

/-- A header is read if the file has the rest of its event. -/
theorem gets_header {cross : Bool} {o : Nat} {h : Header} (h1 : h.type < 2 ^ 32) (h2 : h.misc < 2 ^ 16)
    (h3 : h.size < 2 ^ 16) (h8 : 8 ≤ h.size) :
    Gets cross o (h.size - 8) readEventHeader (image cross [u32F h.type, u16F h.misc, u16F h.size]) h := by
  have hl : (image cross [u32F h.type, u16F h.misc, u16F h.size]).length = 8 := by
    simp [image, u32F, u16F, Fld.image, Item.encode, encodeInt_length]
  have e : image cross [u32F h.type, u16F h.misc, u16F h.size] =
      encodeInt cross 4 h.type ++ (encodeInt cross 2 h.misc ++ (encodeInt cross 2 h.size ++ [])) := by
    simp [image, u32F, u16F, Fld.image, Item.encode]
  have f1 : field cross (image cross [u32F h.type, u16F h.misc, u16F h.size]) 0 4 = h.type := by
    rw [e]; exact field_eq (pre := []) rfl (by omega) h1
  have f2 : field cross (image cross [u32F h.type, u16F h.misc, u16F h.size]) 4 2 = h.misc := by
    rw [e]; exact field_eq (encodeInt_length ..) (by omega) h2
  have f3 : field cross (image cross [u32F h.type, u16F h.misc, u16F h.size]) 6 2 = h.size := by
    rw [e, ← List.append_assoc]; exact field_eq (by simp [encodeInt_length]) (by omega) h3
  generalize image cross [u32F h.type, u16F h.misc, u16F h.size] = d at *
  unfold readEventHeader
  rw [← List.append_nil d]
  refine Gets.bind (n := 0) (gets_data hl.symm (by omega)) ?_ (by omega)
  refine Gets.bindL (gets_isCross _ _) ?_
  simp only [f1, f2, f3]
  rw [if_neg (by omega)]
  refine gets_remaining fun n hn => ?_
  rw [if_neg (by simp at hn; omega)]
  exact (Gets.pure h).mono (by omega)

theorem takeWhile_zeroPad {s : Bytes} (h : (0 : UInt8) ∉ s) {n m : Nat} (hm : s.length < m) (hn : s.length < n) :
    (((zeroPad n s).take m).takeWhile (· ≠ 0)).length = s.length := by
  obtain ⟨k, rfl⟩ : ∃ k, n = s.length + (k + 1) := ⟨n - s.length - 1, by omega⟩
  obtain ⟨j, rfl⟩ : ∃ j, m = s.length + (j + 1) := ⟨m - s.length - 1, by omega⟩
  unfold zeroPad
  rw [show s.length + (k + 1) - s.length = k + 1 by omega, List.replicate_succ, List.take_append,
    show s.length + (j + 1) - s.length = j + 1 by omega, List.take_of_length_le (by omega), List.take_succ_cons,
    List.takeWhile_append_of_pos (by intro a ha; simp only [ne_eq, decide_eq_true_eq]; rintro rfl; exact h ha),
    List.takeWhile_cons_of_neg (by simp)]
  simp

/-- The bytes of a build ID event behind its header. -/
def buildIdRest (cross : Bool) (b : BuildId) : Bytes :=
  image cross [u32F b.pid, .raw (zeroPad 20 b.hash), .raw [UInt8.ofNat (b.size.getD 0), 0, 0, 0],
    .raw (zeroPad (fieldSize b.filename.length) b.filename)]

theorem zeroPad_length {n : Nat} {b : Bytes} (h : b.length ≤ n) : (zeroPad n b).length = n := by
  simp [zeroPad]; omega

theorem gets_buildId (md5 : Bytes → Nat) {cross : Bool} {o : Nat} {b : BuildId} (hb : BuildIdOk md5 b) :
    Gets cross o 0 (readBuildId md5 ⟨67, b.misc, 36 + fieldSize b.filename.length⟩) (buildIdRest cross b) b := by
  obtain ⟨h1, h2, h3, h4, h5, h6, h7, h8⟩ := hb
  have hf := fieldSize_bounds b.filename.length
  have e : buildIdRest cross b = encodeInt cross 4 b.pid ++ (zeroPad 20 b.hash ++
      ([UInt8.ofNat (b.size.getD 0), 0, 0, 0] ++ zeroPad (fieldSize b.filename.length) b.filename)) := by
    simp [buildIdRest, image, u32F, Fld.image, Item.encode]
  have l4 := encodeInt_length cross 4 b.pid
  have l20 : (zeroPad 20 b.hash).length = 20 := zeroPad_length h3.1
  have lz : (zeroPad (fieldSize b.filename.length) b.filename).length = fieldSize b.filename.length :=
    zeroPad_length (by omega)
  have hl : (buildIdRest cross b).length = 28 + fieldSize b.filename.length := by
    rw [e]; simp only [List.length_append, l4, l20, lz, List.length_cons, List.length_nil]; omega
  have f1 : field cross (buildIdRest cross b) 0 4 = b.pid := by
    rw [e]; exact field_eq (pre := []) rfl (by omega) h2
  have f2 : ((buildIdRest cross b).drop 4).take 20 = zeroPad 20 b.hash := by
    rw [e, List.drop_left' l4, List.take_left' l20]
  have f3 : ((buildIdRest cross b).drop 24).take 1 = [UInt8.ofNat (b.size.getD 0)] := by
    rw [e, ← List.append_assoc, List.drop_left' (by rw [List.length_append, l4, l20])]
    rfl
  have f4 : (buildIdRest cross b).drop 28 = zeroPad (fieldSize b.filename.length) b.filename := by
    rw [e, ← List.append_assoc, ← List.append_assoc, List.drop_left' (by
      simp only [List.length_append, l4, l20, List.length_cons, List.length_nil])]
  generalize buildIdRest cross b = d at *
  unfold readBuildId
  rw [if_neg (by simp only; omega)]
  rw [← List.append_nil d]
  refine Gets.bind0 (gets_data (by simp only; omega) (by omega)) ?_
  refine Gets.bindL (gets_isCross _ _) ?_
  simp only [f1, f2, f3, f4]
  have ht : ((List.take (min (36 + fieldSize b.filename.length - 36) 4096)
      (zeroPad (fieldSize b.filename.length) b.filename)).takeWhile (· ≠ 0)).length = b.filename.length :=
    takeWhile_zeroPad h4 (by omega) (by omega)
  simp only [ht]
  rw [if_neg (by omega), if_neg (by rw [padded_eq (by omega), fieldSize]; omega), keptHash_canonical h3]
  simp only
  have hname : (zeroPad (fieldSize b.filename.length) b.filename).take b.filename.length = b.filename := by
    rw [zeroPad, List.take_left]
  rw [hname]
  have hres : ({ misc := b.misc, pid := b.pid, hash := b.hash, filename := b.filename, md5 := md5 b.filename,
                 size := if b.misc.testBit 15 then some (leNat [UInt8.ofNat (b.size.getD 0)]) else none } : BuildId) = b := by
    obtain ⟨misc, pid, hash, filename, m, size, inj⟩ := b
    simp only at h1 h6 h7 h8 ⊢
    subst h6 h8
    congr 1
    by_cases ht : misc.testBit 15 = true
    · rw [if_pos ht] at h7 ⊢
      obtain ⟨v, rfl, hv⟩ := h7
      simp only [Option.getD_some, leNat]
      congr 1
      simp [UInt8.toNat_ofNat, Nat.mod_eq_of_lt hv]
    · rw [if_neg ht] at h7 ⊢
      exact h7.symm
  rw [hres]
  exact Gets.pure b

theorem buildId_image (cross : Bool) (b : BuildId) : image cross (buildIdFlds b) =
    image cross [u32F 67, u16F b.misc, u16F (36 + fieldSize b.filename.length)] ++ buildIdRest cross b := by
  rw [buildIdRest, ← image_append]; rfl

theorem buildId_length (md5 : Bytes → Nat) (cross : Bool) {b : BuildId} (hb : BuildIdOk md5 b) :
    (image cross (buildIdFlds b)).length = 36 + fieldSize b.filename.length := by
  have hf := fieldSize_bounds b.filename.length
  have h3 := hb.2.2.1.1
  simp [buildIdFlds, image, u32F, u16F, Fld.image, Item.encode, encodeInt_length, zeroPad_length h3,
    zeroPad_length (show b.filename.length ≤ fieldSize b.filename.length by omega)]
  omega

theorem gets_buildIds (md5 : Bytes → Nat) {cross : Bool} : ∀ (l : List BuildId) {o fuel size : Nat},
    (∀ b ∈ l, BuildIdOk md5 b) → size = (image cross (l.flatMap buildIdFlds)).length → size ≤ fuel →
    Gets cross o 0 (readBuildIds md5 fuel size) (image cross (l.flatMap buildIdFlds)) l
  | [], o, fuel, size, _, hs, _ => by
    have : size = 0 := by rw [hs]; rfl
    subst this
    cases fuel <;> exact Gets.pure []
  | b :: l, o, fuel, size, hb, hs, hfuel => by
    have h1 := hb b (List.mem_cons_self ..)
    have hlen := buildId_length md5 cross h1
    have hf := fieldSize_bounds b.filename.length
    rw [List.flatMap_cons, image_append] at hs ⊢
    rw [List.length_append, hlen] at hs
    obtain ⟨fuel, rfl⟩ : ∃ k, fuel = k + 1 := ⟨fuel - 1, by omega⟩
    obtain ⟨n, hn⟩ : ∃ n, size = n + 1 := ⟨size - 1, by omega⟩
    have hsz : 36 + fieldSize b.filename.length < 2 ^ 16 := by have := h1.2.2.2.2.1; omega
    have hg := gets_header (cross := cross) (o := o) (h := ⟨67, b.misc, 36 + fieldSize b.filename.length⟩) (by simp only; omega)
      h1.1 hsz (by simp only; omega)
    have hrest : (buildIdRest cross b).length = 28 + fieldSize b.filename.length := by
      have := congrArg List.length (buildId_image cross b)
      rw [hlen, List.length_append] at this
      have h8 : (image cross [u32F 67, u16F b.misc, u16F (36 + fieldSize b.filename.length)]).length = 8 := by
        simp [image, u32F, u16F, Fld.image, Item.encode, encodeInt_length]
      omega
    rw [buildId_image, List.append_assoc]
    unfold readBuildIds
    rw [hn]
    simp only
    refine Gets.bind hg ?_ (by simp only [List.length_append, hrest]; omega)
    simp only
    rw [if_neg (by omega)]
    refine Gets.bind0 (gets_buildId md5 h1) ?_
    have ih := gets_buildIds md5 l (cross := cross) (fuel := fuel) (size := n + 1 - (36 + fieldSize b.filename.length))
      (o := o + (image cross [u32F 67, u16F b.misc, u16F (36 + fieldSize b.filename.length)]).length + (buildIdRest cross b).length)
      (fun c hc => hb c (List.mem_cons_of_mem _ hc)) (by omega) (by omega)
    exact Gets.bindR ih (Gets.pure _)

/-! ## Texts -/

theorem gets_single {cross : Bool} {o : Nat} {s : Bytes} (h : Plain s) :
    Gets cross o 0 (readSingle (image cross [strF s]).length) (image cross [strF s]) s := by
  unfold readSingle
  rw [if_neg (by simp [image, strF, Fld.image, Item.encode, encodeInt_length]), image_one]
  exact gets_str h

theorem gets_tokens {cross : Bool} (max : Nat) (hmax : max < 2 ^ 64) : ∀ (l : List Bytes) {o sizeRead : Nat},
    (∀ s ∈ l, Plain s) → sizeRead + (l.flatMap (fun s => (strF s).image cross)).length ≤ max →
    Gets cross o 0 (readTokens max l.length sizeRead) (l.flatMap (fun s => (strF s).image cross)) l
  | [], _, _, _, _ => Gets.pure []
  | s :: l, o, n, h, hn => by
    have h4 : 4 ≤ ((strF s).image cross).length := by simp [strF, Fld.image, Item.encode, encodeInt_length]
    rw [List.flatMap_cons, List.length_append] at hn
    rw [List.flatMap_cons]
    show Gets cross o 0 (readTokens max (l.length + 1) n) _ _
    unfold readTokens
    rw [if_pos (by omega)]
    refine Gets.bindL (gets_tell _ _) ?_
    have hs : Gets cross o 0 (readSingle (max - n)) ((strF s).image cross) s := by
      unfold readSingle
      rw [if_neg (by omega)]
      exact gets_str (h s (List.mem_cons_self ..))
    refine Gets.bind0 hs (Gets.bindL (gets_tell _ _) ?_)
    have e : addSz n (o + ((strF s).image cross).length - o) = n + ((strF s).image cross).length := by
      unfold addSz; omega
    rw [e]
    exact Gets.bindR (gets_tokens max hmax l (fun s hs => h s (List.mem_cons_of_mem _ hs)) (by omega)) (Gets.pure _)

theorem join_acc : ∀ (l : List Bytes) (acc : Bytes), acc ≠ [] →
    l.foldl (fun full s => (if full = [] then full else full ++ [32]) ++ s) acc = acc ++ l.flatMap (fun s => 32 :: s)
  | [], acc, _ => by simp
  | s :: l, acc, h => by
    rw [List.foldl_cons, if_neg h, join_acc l _ (by simp)]
    simp

theorem intercalate_cons (s : Bytes) : ∀ l : List Bytes, [32].intercalate (s :: l) = s ++ l.flatMap (fun s => 32 :: s)
  | [] => by simp [List.intercalate]
  | t :: l => by
    have := intercalate_cons t l
    simp [List.intercalate] at this ⊢
    rw [this]

theorem join_eq : ∀ l : List Bytes, joinTokens l = commandLine l
  | [] => rfl
  | [] :: l => by
    have := join_eq l
    unfold commandLine at this ⊢
    rw [List.dropWhile_cons_of_pos (by simp), ← this]
    rfl
  | (a :: s) :: l => by
    unfold commandLine joinTokens
    rw [List.dropWhile_cons_of_neg (by simp), intercalate_cons, List.foldl_cons, if_pos rfl, List.nil_append,
      join_acc _ _ (by simp)]

theorem counted_image {α : Type} (cross : Bool) (f : α → List Fld) (l : List α) :
    image cross (counted f l) = (u32F l.length).image cross ++ l.flatMap (fun a => image cross (f a)) := by
  rw [counted, image_cons, image_flatMap]

theorem gets_cmdline {cross : Bool} {o : Nat} (st : St) {l : List Bytes} (h : Texts l)
    (hl : (image cross (counted (fun s => [strF s]) l)).length < 2 ^ 64) :
    Gets cross o 0 (readCmdline st (image cross (counted (fun s => [strF s]) l)).length)
      (image cross (counted (fun s => [strF s]) l))
      { st with info := { st.info with cmdTokens := st.info.cmdTokens ++ l, cmdWhole := some (commandLine l) } } := by
  have e : image cross (counted (fun s => [strF s]) l) =
      (u32F l.length).image cross ++ l.flatMap (fun s => (strF s).image cross) := by
    simp only [counted_image, image_one]
  have h4 : ((u32F l.length).image cross).length = 4 := by simp [u32F, Fld.image, Item.encode, encodeInt_length]
  unfold readCmdline
  generalize hm : (image cross (counted (fun s => [strF s]) l)).length = max at *
  rw [e] at hm ⊢
  rw [List.length_append, h4] at hm
  refine Gets.bind0 (gets_u32 h.1) ?_
  refine Gets.bindR (gets_tokens max hl l h.2 (by omega)) ?_
  rw [join_eq]
  exact Gets.pure _

/-! ## Numbers -/

theorem gets_words {cross : Bool} {p : P Nat} {w : Nat} {f : Nat → Fld} (hw : 0 < w)
    (hlen : ∀ v, ((f v).image cross).length = w) : ∀ (l : List Nat) {o fuel : Nat},
    (∀ v ∈ l, ∀ o, Gets cross o 0 p ((f v).image cross) v) → l.length ≤ fuel → l.length * w < 2 ^ 64 →
    Gets cross o 0 (readWords p w fuel (l.length * w)) (image cross (l.map f)) l
  | [], o, fuel, _, _, _ => by
    rw [show ([] : List Nat).length * w = 0 by simp]
    cases fuel <;> exact Gets.pure []
  | v :: l, o, fuel, h, hf, h64 => by
    obtain ⟨fuel, rfl⟩ : ∃ k, fuel = k + 1 := ⟨fuel - 1, by simp at hf; omega⟩
    have e : (v :: l).length * w = l.length * w + w := by rw [List.length_cons, Nat.add_mul, Nat.one_mul]
    obtain ⟨n, hn⟩ : ∃ n, l.length * w + w = n + 1 := ⟨l.length * w + w - 1, by omega⟩
    rw [e, hn, List.map_cons, image_cons]
    unfold readWords
    refine Gets.bind0 (h v (List.mem_cons_self ..) _) ?_
    have e2 : (n + 1 + 2 ^ 64 - w) % 2 ^ 64 = l.length * w := by
      rw [← hn]; rw [e] at h64; omega
    rw [e2]
    exact Gets.bindR (gets_words hw hlen l (fun v hv => h v (List.mem_cons_of_mem _ hv)) (by simp at hf; omega)
      (by rw [e] at h64; omega)) (Gets.pure _)

theorem words_length {cross : Bool} {w : Nat} {f : Nat → Fld} (hlen : ∀ v, ((f v).image cross).length = w) :
    ∀ l : List Nat, (image cross (l.map f)).length = l.length * w
  | [] => by simp [image]
  | v :: l => by
    rw [List.map_cons, image_cons, List.length_append, hlen, words_length hlen l, List.length_cons, Nat.add_mul]; omega

theorem u32_length (cross : Bool) (v : Nat) : ((u32F v).image cross).length = 4 := encodeInt_length ..
theorem u64_length (cross : Bool) (v : Nat) : ((u64F v).image cross).length = 8 := encodeInt_length ..

theorem gets_uint32 {cross : Bool} {o type : Nat} (st : St) {l : List Nat} (hl : l ≠ []) (hv : ∀ v ∈ l, v < 2 ^ 32) :
    Gets cross o 0 (readUint32 st type (image cross (l.map u32F)).length) (image cross (l.map u32F))
      { st with info := { st.info with uint32s := st.info.uint32s ++ [(type, l)] } } := by
  rw [words_length (u32_length cross)]
  intro r tail hr hc ho hd hn
  have hlen := congrArg List.length hd
  simp only [List.length_drop, List.length_append, words_length (u32_length cross)] at hlen
  obtain ⟨h1, h2, h3⟩ := hr
  unfold readUint32
  have hg := gets_words (cross := cross) (p := u32) (f := u32F) (w := 4) (by omega) (u32_length cross) l (o := o)
    (fuel := r.size + 1) (fun v h _ => gets_u32 (hv v h)) (by omega) (by omega)
  refine Gets.bindR hg ?_ r tail ⟨h1, h2, h3⟩ hc ho hd hn
  rw [if_neg hl]
  exact Gets.pure _

theorem gets_uint64 {cross : Bool} {o type : Nat} (st : St) {l : List Nat} (hl : l ≠ []) (hv : ∀ v ∈ l, v < 2 ^ 64) :
    Gets cross o 0 (readUint64 st type (image cross (l.map u64F)).length) (image cross (l.map u64F))
      { st with info := { st.info with uint64s := st.info.uint64s ++ [(type, l)] } } := by
  rw [words_length (u64_length cross)]
  intro r tail hr hc ho hd hn
  have hlen := congrArg List.length hd
  simp only [List.length_drop, List.length_append, words_length (u64_length cross)] at hlen
  obtain ⟨h1, h2, h3⟩ := hr
  unfold readUint64
  have hg := gets_words (cross := cross) (p := u64) (f := u64F) (w := 8) (by omega) (u64_length cross) l (o := o)
    (fuel := r.size + 1) (fun v h _ => gets_u64 (hv v h)) (by omega) (by omega)
  refine Gets.bindR hg ?_ r tail ⟨h1, h2, h3⟩ hc ho hd hn
  rw [if_neg hl]
  exact Gets.pure _

/-! ## Topologies, PMUs, groups -/

theorem gets_strs {cross : Bool} {o : Nat} {l : List Bytes} (h : ∀ s ∈ l, Plain s) :
    Gets cross o 0 (times sizedStr l.length) (l.flatMap (fun s => image cross [strF s])) l := by
  refine Gets.times l fun s hs o => ?_
  rw [image_one]
  exact gets_str (h s hs)

theorem str_length_pos (cross : Bool) (s : Bytes) : 1 ≤ (image cross [strF s]).length := by
  simp [image, strF, Fld.image, Item.encode, encodeInt_length]; omega

theorem count_le {α : Type} {f : α → Bytes} (h : ∀ a, 1 ≤ (f a).length) : ∀ l : List α, l.length ≤ (l.flatMap f).length
  | [] => by simp
  | a :: l => by
    have := count_le h l
    have := h a
    rw [List.flatMap_cons, List.length_append, List.length_cons]; omega

theorem cpus_length (cross : Bool) : ∀ l : List (Nat × Nat),
    (l.flatMap (fun c => image cross [u32F c.1, u32F c.2])).length = 8 * l.length
  | [] => rfl
  | c :: l => by
    rw [List.flatMap_cons, List.length_append, cpus_length cross l, List.length_cons]
    simp [image, u32_length]; omega

theorem gets_topology {cross : Bool} {o : Nat} (st : St) {t : Topology} (h1 : Texts t.cores) (h2 : Texts t.threads)
    (h3 : ∀ c ∈ t.cpus, c.1 < 2 ^ 32 ∧ c.2 < 2 ^ 32) (h4 : t.cpus ≠ [] → nrCpus st.info.uint32s = t.cpus.length)
    (bs : Bytes) (hbs : bs = image cross (counted (fun s => [strF s]) t.cores ++ counted (fun s => [strF s]) t.threads ++
      t.cpus.flatMap (fun c => [u32F c.1, u32F c.2]))) :
    Gets cross o 0 (readTopology st bs.length) bs
      { st with info := { st.info with topology := ⟨st.info.topology.cores ++ t.cores, st.info.topology.threads ++ t.threads, st.info.topology.cpus ++ t.cpus⟩ } } := by
  rw [image_append, image_append, counted_image, counted_image, image_flatMap, List.append_assoc, List.append_assoc,
    List.append_assoc] at hbs
  have hlen := congrArg List.length hbs
  simp only [List.length_append, cpus_length, u32_length] at hlen
  have c1 := count_le (str_length_pos cross) t.cores
  have c2 := count_le (str_length_pos cross) t.threads
  generalize bs.length = size at *
  subst hbs
  unfold readTopology
  refine Gets.bindL (gets_tell _ _) ?_
  refine Gets.bind0 (gets_u32 h1.1) ?_
  rw [if_neg (by omega)]
  refine Gets.bind0 (gets_strs h1.2) ?_
  refine Gets.bind0 (gets_u32 h2.1) ?_
  rw [if_neg (by omega)]
  refine Gets.bind0 (gets_strs h2.2) ?_
  refine Gets.bindL (gets_tell _ _) ?_
  simp only [u32_length]
  refine Gets.bindR ?_ (Gets.pure _)
  by_cases hc : t.cpus = []
  · rw [if_neg (by rw [hc, List.length_nil] at hlen; omega), hc]
    exact Gets.pure []
  · have := List.length_pos_iff.mpr hc
    rw [if_pos (by omega), h4 hc, if_neg (by omega)]
    refine Gets.times t.cpus fun c hcm o => ?_
    unfold readCpu
    rw [image_cons, image_one]
    exact Gets.bind0 (gets_u32 (h3 c hcm).1) (Gets.bindR (gets_u32 (h3 c hcm).2) (Gets.pure _))

theorem gets_numa {cross : Bool} {o : Nat} (st : St) {l : List Node} (hl : l.length < 2 ^ 32)
    (h : ∀ n ∈ l, n.id < 2 ^ 32 ∧ n.total < 2 ^ 64 ∧ n.free < 2 ^ 64 ∧ Plain n.cpus) :
    Gets cross o 0 (readNuma st) (image cross (counted (fun n => [u32F n.id, u64F n.total, u64F n.free, strF n.cpus]) l))
      { st with info := { st.info with numa := st.info.numa ++ l } } := by
  rw [counted_image]
  unfold readNuma
  refine Gets.bind0 (gets_u32 hl) (Gets.bindR (Gets.times l fun n hn o => ?_) (Gets.pure _))
  obtain ⟨h1, h2, h3, h4⟩ := h n hn
  rw [image_cons, image_cons, image_cons, image_one]
  unfold readNode
  exact Gets.bind0 (gets_u32 h1) (Gets.bind0 (gets_u64 h2) (Gets.bind0 (gets_u64 h3) (Gets.bindR (gets_str h4) (Gets.pure _))))

theorem gets_pmus {cross : Bool} {o : Nat} (st : St) {l : List (Nat × Bytes)} (h0 : l ≠ []) (hl : l.length < 2 ^ 32)
    (h : ∀ m ∈ l, m.1 < 2 ^ 32 ∧ Plain m.2) :
    Gets cross o 0 (readPmus st) (image cross (counted (fun m => [u32F m.1, strF m.2]) l))
      { st with info := { st.info with pmus := st.info.pmus ++ l } } := by
  rw [counted_image]
  unfold readPmus
  refine Gets.bind0 (gets_u32 hl) ?_
  rw [if_neg (by have := List.length_pos_iff.mpr h0; omega)]
  refine Gets.bindR (Gets.times l fun m hm o => ?_) (Gets.pure _)
  obtain ⟨h1, h2⟩ := h m hm
  rw [image_cons, image_one]
  exact Gets.bind0 (gets_u32 h1) (Gets.bindR (gets_str h2) (Gets.pure _))

theorem gets_groups {cross : Bool} {o : Nat} (st : St) {l : List Group} (hl : l.length < 2 ^ 32)
    (h : ∀ g ∈ l, Plain g.name ∧ g.leader < 2 ^ 32 ∧ g.members < 2 ^ 32) :
    Gets cross o 0 (readGroups st) (image cross (counted (fun g => [strF g.name, u32F g.leader, u32F g.members]) l))
      { st with info := { st.info with groups := st.info.groups ++ l } } := by
  rw [counted_image]
  unfold readGroups
  refine Gets.bind0 (gets_u32 hl) (Gets.bindR (Gets.times l fun g hg o => ?_) (Gets.pure _))
  obtain ⟨h1, h2, h3⟩ := h g hg
  rw [image_cons, image_cons, image_one]
  exact Gets.bind0 (gets_str h1) (Gets.bind0 (gets_u32 h2) (Gets.bindR (gets_u32 h3) (Gets.pure _)))

theorem parsed_ok : ∀ {l : List Bytes} {v : List Nat}, parseTokens l = .ok v → parsedTokens l = some v
  | [], v, h => by
    simp only [parseTokens, Outcome.ok.injEq] at h
    subst h; rfl
  | t :: l, v, h => by
    unfold parseTokens at h
    unfold parsedTokens
    cases ht : parseToken t with
    | ok a =>
      rw [ht] at h
      simp only at h ⊢
      cases hr : parseTokens l with
      | ok b =>
        rw [hr] at h
        simp only [Outcome.ok.injEq] at h
        rw [parsed_ok hr, ← h]; rfl
      | fail => rw [hr] at h; cases h
      | diverge => rw [hr] at h; cases h
    | fail => rw [ht] at h; cases h
    | diverge => rw [ht] at h; cases h

theorem parsed_hybrid {h : Hybrid} (hh : HybridOk h) : parsedCpus (h.cpus.getD []) = some h.cpuList := by
  obtain ⟨_, t, ht, _, hc⟩ := hh
  rw [ht, Option.getD_some]
  rcases hc with ⟨rfl, e⟩ | ⟨_, e⟩
  · rw [e]; decide +kernel
  · unfold parseCPUNumbers at e
    unfold parsedCpus
    split at e
    · cases e
    · exact parsed_ok e

theorem gets_hybrids {cross : Bool} {o : Nat} (st : St) {l : List Hybrid} (hl : l.length < 2 ^ 32)
    (h : ∀ g ∈ l, HybridOk g) :
    Gets cross o 0 (readHybrids st) (image cross (counted (fun h => [strF h.pmu, strF (h.cpus.getD [])]) l))
      { st with info := { st.info with hybrids := st.info.hybrids ++ l } } := by
  rw [counted_image]
  unfold readHybrids
  refine Gets.bind0 (gets_u32 hl) (Gets.bindR (Gets.times l fun g hg o => ?_) (Gets.pure _))
  have hp := parsed_hybrid (h g hg)
  obtain ⟨h1, t, h2, h3, _⟩ := h g hg
  rw [image_cons, image_one]
  unfold readHybrid
  rw [h2, Option.getD_some] at hp ⊢
  refine Gets.bind0 (gets_str h1) (Gets.bindR (gets_str h3) ?_)
  simp only [hp]
  rw [← h2]
  exact Gets.pure _

/-! ## Event descriptions -/

theorem attr_image_length (cross : Bool) (a : EventAttr) : (image cross (attrFlds a)).length = 96 := by
  simp [attrFlds, image, u32F, u64F, Fld.image, Item.encode, encodeInt_length]

theorem deserialize_eq {p : ProtoAttr} (h : AttrOk p) : deserializeAttr p = attrOf p := by
  obtain ⟨_, _, _, _, _, _, _, h8, _⟩ := h
  unfold deserializeAttr attrOf
  simp only [Nat.zero_testBit, Bool.false_eq_true, if_false, h8]
  cases p.flags.testBit 14 <;> rfl

theorem serialize_eq {p : ProtoAttr} (h : AttrOk p) : serializeAttr (attrOf p) = p := by
  rw [← deserialize_eq h]
  obtain ⟨_, _, _, _, h5, _, _, h8, _, _, h11, _⟩ := h
  refine proto_attr_round_trip_partial p ?_ h5 ?_ ?_
  · intro b hb
    rw [← h8, Nat.testBit_and, Bool.and_eq_true] at hb
    rw [← carried_bit]; exact hb.2
  · intro ht; rw [ht] at h11; exact h11
  · intro ht; rw [ht] at h11; exact h11

theorem matches_cons {cross : Bool} {q : Piece} {ps : List Piece} {a b : Bytes} (h : q.Is cross a) (hm : Matches cross ps b) :
    Matches cross (q :: ps) (a ++ b) := ⟨a, b, rfl, h, hm⟩

theorem is_u32 {v : Nat} (h : v < 2 ^ 32) : Piece.Is false ((u32F v).image false) (.u32 v) :=
  ⟨u32_length false v, decode_encode false (n := 4) h⟩
theorem is_u64 {v : Nat} (h : v < 2 ^ 64) : Piece.Is false ((u64F v).image false) (.u64 v) :=
  ⟨u64_length false v, decode_encode false (n := 8) h⟩

theorem carried_lt {f : Nat} (h : f &&& carried = f) : f < 2 ^ 64 := by
  have : f &&& carried ≤ carried := Nat.and_le_right
  rw [h] at this
  have : carried < 2 ^ 64 := by decide
  omega

theorem gets_attr {o : Nat} {p : ProtoAttr} (h : AttrOk p) :
    Gets false o 0 readEventAttr (image false (attrFlds (attrOf p))) (attrOf p) := by
  have hl := attr_image_length false (attrOf p)
  have hsz : (attrOf p).size = 96 := h.2.1
  have hm : Matches false (attrLayout (attrOf p) (.u64 (attrOf p).flags)) (Attr.known (image false (attrFlds (attrOf p)))) := by
    have e : Attr.known (image false (attrFlds (attrOf p))) = image false (attrFlds (attrOf p)) := by
      unfold Attr.known
      rw [hl, List.take_of_length_le (by omega)]
      simp
    rw [e]
    obtain ⟨h1, h2, h3, h4, h5, h6, h7, h8, h9, h10, h11, h12, h13, h14, h15, h16, h17⟩ := h
    have hw : (attrOf p).wakeup < 2 ^ 32 := by
      unfold attrOf; simp only; split <;> assumption
    have hs : (attrOf p).size < 2 ^ 32 := by rw [hsz]; decide
    have hf : (attrOf p).flags < 2 ^ 64 := carried_lt h8
    refine matches_cons (is_u32 h1) (matches_cons (is_u32 hs) (matches_cons (is_u64 h3)
      (matches_cons (is_u64 h4) (matches_cons (is_u64 h6) (matches_cons (is_u64 h7) (matches_cons (is_u64 hf)
      (matches_cons (is_u32 hw) (matches_cons (is_u32 h12) (matches_cons (is_u64 h13) (matches_cons (is_u64 h14)
      (matches_cons (is_u64 h15) (matches_cons (is_u64 h16) (matches_cons (is_u32 h17)
      (matches_cons (is_u32 (by decide : (0 : Nat) < 2 ^ 32)) rfl))))))))))))))
  intro r tail hr hc _ hd _
  rw [read_attr r (attrOf p) _ tail hr hc hd (by rw [hl, hsz]) (by omega) hm, hl, hsz]
  congr 3
  unfold attrOf; simp only [h.2.1]

/-- What adding the attributes and names of events makes of the state. -/
def addEvents (st : St) (ser : Ser) (l : List (ProtoFileAttr × Nat × Bytes)) : St :=
  { info := { st.info with attrs := st.info.attrs ++ l.map (·.1), eventTypes := st.info.eventTypes ++ l.map (·.2) }
    ser := ser
    seenIds := st.seenIds ++ l.flatMap (fun x => x.1.ids.take 1)
    seenConfigs := st.seenConfigs ++ l.map (fun x => x.1.attr.config) }

theorem gets_ids {cross : Bool} {o : Nat} {l : List Nat} (h : ∀ v ∈ l, v < 2 ^ 64) :
    Gets cross o 0 (times u64 l.length) (image cross (l.map u64F)) l := by
  have := Gets.times (cross := cross) (p := u64) (f := fun v => (u64F v).image cross) l (o := o)
    (fun v hv _ => gets_u64 (h v hv))
  have e : image cross (l.map u64F) = l.flatMap (fun v => (u64F v).image cross) := by
    simp [image, List.flatMap_map]
  rw [e]; exact this

theorem gets_events : ∀ (l : List (ProtoFileAttr × Nat × Bytes)) {o : Nat} (st : St) {ser : Ser},
    (∀ x ∈ l, AttrOk x.1.attr ∧ x.1.attr.config = x.2.1 ∧ Plain x.2.2 ∧ x.1.ids.length < 2 ^ 32 ∧
      ∀ id ∈ x.1.ids, id < 2 ^ 64) →
    registerAll st.ser false (l.map (fun x => deserializeFileAttr x.1)) = some ser →
    Gets false o 0 (readEventDescs l.length st) (image false (l.flatMap eventFlds)) (addEvents st ser l)
  | [], o, st, ser, _, hr => by
    simp only [List.map_nil, registerAll, Option.some.injEq] at hr
    subst hr
    unfold addEvents
    simp only [List.map_nil, List.flatMap_nil, List.append_nil]
    exact Gets.pure st
  | (⟨p, ids⟩, id, name) :: l, o, st, ser, h, hr => by
    obtain ⟨h1, h2, h3, h4, h5⟩ := h _ (List.mem_cons_self ..)
    simp only at h1 h2 h3 h4 h5
    have hdes : deserializeFileAttr ⟨p, ids⟩ = ⟨attrOf p, ids⟩ := by
      unfold deserializeFileAttr; simp only [deserialize_eq h1]
    rw [List.map_cons] at hr
    simp only [hdes] at hr
    unfold registerAll at hr
    cases hcr : createReader st.ser ⟨attrOf p, ids⟩ false with
    | mk b s1 =>
      rw [hcr] at hr
      cases b
      · cases hr
      · simp only at hr
        rw [List.flatMap_cons, image_append]
        show Gets false o 0 (readEventDescs (l.length + 1) st) _ _
        have e : image false (eventFlds (⟨p, ids⟩, id, name)) = image false (attrFlds (attrOf p)) ++
            ((u32F ids.length).image false ++ ((strF name).image false ++ image false (ids.map u64F))) := by
          unfold eventFlds
          rw [image_append, image_append, image_cons, image_one, List.append_assoc, List.append_assoc]
        rw [e, List.append_assoc, List.append_assoc, List.append_assoc]
        unfold readEventDescs
        refine Gets.bind0 (gets_attr h1) (Gets.bind0 (gets_u32 h4) (Gets.bind0 (gets_str h3) (Gets.bind0 (gets_ids h5) ?_)))
        refine Gets.bindL (gets_isCross _ _) ?_
        have hadd : addAttr st ⟨attrOf p, ids⟩ false = (pure ⟨{ st.info with attrs := st.info.attrs ++ [⟨p, ids⟩] }, s1,
            st.seenIds ++ ids.take 1, st.seenConfigs ++ [p.config]⟩ : P St) := by
          unfold addAttr
          simp only [hcr, if_true]
          unfold serializeFileAttr
          simp only [serialize_eq h1]
          rfl
        rw [hadd]
        refine Gets.bindL (Gets.pure _) ?_
        have hcfg : (attrOf p).config = id := h2
        have ih := gets_events l (ser := ser) (o := o + (image false (attrFlds (attrOf p))).length +
          ((u32F ids.length).image false).length + ((strF name).image false).length + (image false (ids.map u64F)).length)
          ⟨{ st.info with attrs := st.info.attrs ++ [⟨p, ids⟩], eventTypes := st.info.eventTypes ++ [(id, name)] }, s1,
            st.seenIds ++ ids.take 1, st.seenConfigs ++ [p.config]⟩
          (fun x hx => h x (List.mem_cons_of_mem _ hx)) hr
        rw [hcfg]
        have eres : addEvents ⟨{ st.info with attrs := st.info.attrs ++ [⟨p, ids⟩], eventTypes := st.info.eventTypes ++ [(id, name)] }, s1,
            st.seenIds ++ ids.take 1, st.seenConfigs ++ [p.config]⟩ ser l = addEvents st ser ((⟨p, ids⟩, id, name) :: l) := by
          unfold addEvents
          simp
        rw [← eres]
        exact ih

theorem gets_eventDesc {o : Nat} (st : St) {attrs : List ProtoFileAttr} {types : List (Nat × Bytes)} {ser : Ser}
    (hl : attrs.length = types.length) (h31 : attrs.length < 2 ^ 31)
    (h : ∀ x ∈ attrs.zip types, AttrOk x.1.attr ∧ x.1.attr.config = x.2.1 ∧ Plain x.2.2 ∧ x.1.ids.length < 2 ^ 32 ∧
      ∀ id ∈ x.1.ids, id < 2 ^ 64)
    (hr : registerAll st.ser false (attrs.map deserializeFileAttr) = some ser) :
    Gets false o 0 (readEventDesc st) (image false ([u32F attrs.length, u32F 96] ++ (attrs.zip types).flatMap eventFlds))
      ⟨{ st.info with attrs := attrs, eventTypes := st.info.eventTypes ++ types }, ser,
        attrs.flatMap (fun f => f.ids.take 1), attrs.map (fun f => f.attr.config)⟩ := by
  have z1 : (attrs.zip types).map (·.1) = attrs := List.map_fst_zip (by omega)
  have z2 : (attrs.zip types).map (·.2) = types := List.map_snd_zip (by omega)
  have zl : (attrs.zip types).length = attrs.length := by simp [List.length_zip]; omega
  rw [image_append, image_cons, image_one, List.append_assoc]
  unfold readEventDesc
  refine Gets.bind0 (gets_u32 (by omega)) ?_
  rw [if_neg (by omega)]
  refine Gets.bind0 (gets_u32 (by omega)) ?_
  have hr' : registerAll st.ser false ((attrs.zip types).map (fun x => deserializeFileAttr x.1)) = some ser := by
    rw [← hr]
    conv => rhs; rw [← z1]
    rw [List.map_map]; rfl
  have := gets_events (attrs.zip types) (ser := ser) (o := o + ((u32F attrs.length).image false).length + ((u32F 96).image false).length)
    { st with info := { st.info with attrs := [] }, seenIds := [], seenConfigs := [] } h hr'
  rw [zl] at this
  unfold addEvents at this
  simp only [z1, z2, List.nil_append] at this
  have e1 : (attrs.zip types).flatMap (fun x => x.1.ids.take 1) = attrs.flatMap (fun f => f.ids.take 1) := by
    conv => rhs; rw [← z1]
    rw [List.flatMap_map]
  have e2 : (attrs.zip types).map (fun x => x.1.attr.config) = attrs.map (fun f => f.attr.config) := by
    conv => rhs; rw [← z1]
    rw [List.map_map]; rfl
  rw [e1, e2] at this
  exact this

end Verif.Meta
