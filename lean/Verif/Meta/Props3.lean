import Verif.Meta.Props2
import Verif.Sample.Safe

/-! # C28, C46, C48: sizes of the metadata, safety of reading, and what is not read back -/

namespace Verif.Meta
open Verif.Buffer Verif.Event Verif.Sample Verif.Attr Verif.Names Verif.Text Verif.Util

/-! ## Sizes -/

theorem storage_eq {s : Bytes} (h : Plain s) : storageSize s = ((strF s).image false).length := by
  unfold storageSize
  rw [padded_eq (by have := h.2; omega)]
  simp [strF, Fld.image, Item.encode, encodeInt_length, stringField_length, fieldSize]

theorem sum_congr {α : Type} {f g : α → Nat} : ∀ {l : List α}, (∀ a ∈ l, f a = g a) → (l.map f).sum = (l.map g).sum
  | [], _ => rfl
  | a :: l, h => by
    rw [List.map_cons, List.map_cons, List.sum_cons, List.sum_cons, h a (List.mem_cons_self ..),
      sum_congr (fun b hb => h b (List.mem_cons_of_mem _ hb))]

theorem flatMap_length {α : Type} {f : α → Bytes} : ∀ l : List α, (l.flatMap f).length = (l.map (fun a => (f a).length)).sum
  | [] => rfl
  | a :: l => by rw [List.flatMap_cons, List.length_append, flatMap_length l, List.map_cons, List.sum_cons]

theorem counted_length {α : Type} {f : α → List Fld} {g : α → Nat} {l : List α}
    (h : ∀ a ∈ l, g a = (image false (f a)).length) : (image false (counted f l)).length = 4 + (l.map g).sum := by
  rw [counted_image, List.length_append, u32_length, flatMap_length, sum_congr h]

/-- What the size of a feature counts. -/
def featureSize (i : Info) : Nat → Nat
  | 1 => i.tracing.length
  | 2 => buildIdSize i
  | 3 => optSize i.hostname
  | 4 => optSize i.osrelease
  | 5 => optSize i.version
  | 6 => optSize i.arch
  | 7 => wordsSize 4 i.uint32s
  | 8 => optSize i.cpudesc
  | 9 => optSize i.cpuid
  | 10 => wordsSize 8 i.uint64s
  | 11 => if i.cmdTokens ≠ [] then 4 + (i.cmdTokens.map storageSize).sum else 0
  | 12 => eventDescSize i
  | 13 => topologySize i.topology
  | 14 => numaSize i.numa
  | 16 => pmusSize i.pmus
  | 17 => groupsSize i.groups
  | 30 => hybridsSize i.hybrids
  | _ => 0

theorem metadataSize_eq (i : Info) :
    metadataSize i = numBits (i.mask &&& supported) * 16 + (known.map (featureSize i)).sum := by
  unfold metadataSize stringSize
  simp only [known, List.map_cons, List.map_nil, List.sum_cons, List.sum_nil, featureSize]
  omega

theorem contents_length (i : Info) (m : Nat → Bool) : ∀ l : List Nat, (contents false i (l.filter m)).flatten.length =
    (l.map (fun t => if m t then (image false (featureFlds i t)).length else 0)).sum
  | [] => rfl
  | t :: l => by
    rw [List.map_cons, List.sum_cons, ← contents_length i m l]
    cases h : m t
    · rw [List.filter_cons_of_neg (by simp [h])]; simp
    · rw [List.filter_cons_of_pos (by simp [h])]; simp [contents]

/-- Bytes counted for features that are not there: numbers of entries of empty lists. -/
def slack (i : Info) : Nat → Nat
  | 13 => if i.mask.testBit 13 then 0 else 8
  | 14 => if i.mask.testBit 14 then 0 else 4
  | 16 => if i.mask.testBit 16 then 0 else 4
  | 17 => if i.mask.testBit 17 then 0 else 4
  | 30 => if i.mask.testBit 30 then 0 else 4
  | _ => 0

theorem feature_size (md5 : Bytes → Nat) {i : Info} (h : Faithful md5 i) (hcmd : i.mask.testBit 11 = true → i.cmdTokens ≠ [])
    {t : Nat} (ht : t ∈ known) :
    featureSize i t = (if i.mask.testBit t then (image false (featureFlds i t)).length else 0) + slack i t := by
  have text : ∀ {s : Option Bytes} {b : Bool}, TextOk b s →
      optSize s = (if b = true then (image false [strF (s.getD [])]).length else 0) + 0 := by
    intro s b hs
    cases b
    · unfold TextOk at hs
      simp only [Bool.false_eq_true, if_false] at hs
      rw [hs]; rfl
    · obtain ⟨t, rfl, hp⟩ := hs
      rw [if_pos rfl, image_one]
      exact storage_eq hp
  simp only [known, List.mem_cons, List.not_mem_nil, or_false] at ht
  rcases ht with rfl | rfl | rfl | rfl | rfl | rfl | rfl | rfl | rfl | rfl | rfl | rfl | rfl | rfl | rfl | rfl | rfl | rfl
  · show i.tracing.length = (if i.mask.testBit 1 then (image false [.raw i.tracing]).length else 0) + 0
    have h1 := h.tracing
    by_cases hb : i.mask.testBit 1 = true
    · rw [if_pos hb, image_one]; rfl
    · rw [if_neg hb] at h1 ⊢; rw [h1]; rfl
  · show buildIdSize i = (if i.mask.testBit 2 then (image false (i.buildIds.flatMap buildIdFlds)).length else 0) + 0
    have h1 := h.buildIds
    unfold buildIdSize
    by_cases hb : i.mask.testBit 2 = true
    · rw [if_pos hb] at h1 ⊢
      rw [image_flatMap, flatMap_length, Nat.add_zero]
      refine sum_congr fun b hb => ?_
      rw [buildId_length md5 false (h1 b hb), padded_eq (by have := (h1 b hb).2.2.2.2.1; omega)]
      rfl
    · rw [if_neg hb] at h1 ⊢; rw [h1]; rfl
  · exact text h.hostname
  · exact text h.osrelease
  · exact text h.version
  · exact text h.arch
  · show wordsSize 4 i.uint32s = (if i.mask.testBit 7 then (image false ((valuesOf 7 i.uint32s).map u32F)).length else 0) + 0
    have h1 := h.nrcpus
    unfold WordsOk at h1
    by_cases hb : i.mask.testBit 7 = true
    · rw [if_pos hb] at h1 ⊢
      obtain ⟨v, hv, _, _⟩ := h1
      rw [words_length (u32_length false), hv]
      simp [wordsSize, valuesOf]
    · rw [if_neg hb] at h1 ⊢; rw [h1]; rfl
  · exact text h.cpudesc
  · exact text h.cpuid
  · show wordsSize 8 i.uint64s = (if i.mask.testBit 10 then (image false ((valuesOf 10 i.uint64s).map u64F)).length else 0) + 0
    have h1 := h.memory
    unfold WordsOk at h1
    by_cases hb : i.mask.testBit 10 = true
    · rw [if_pos hb] at h1 ⊢
      obtain ⟨v, hv, _, _⟩ := h1
      rw [words_length (u64_length false), hv]
      simp [wordsSize, valuesOf]
    · rw [if_neg hb] at h1 ⊢; rw [h1]; rfl
  · show (if i.cmdTokens ≠ [] then 4 + (i.cmdTokens.map storageSize).sum else 0) =
      (if i.mask.testBit 11 then (image false (counted (fun s => [strF s]) i.cmdTokens)).length else 0) + 0
    have h1 := h.cmdline
    by_cases hb : i.mask.testBit 11 = true
    · rw [if_pos hb] at h1 ⊢
      rw [if_pos (hcmd hb), counted_length (g := storageSize) (fun s hs => by rw [image_one]; exact storage_eq (h1.1.2 s hs)), Nat.add_zero]
    · rw [if_neg hb] at h1 ⊢; rw [h1.1]; rfl
  · show eventDescSize i = (if i.mask.testBit 12 then
      (image false ([u32F i.attrs.length, u32F 96] ++ (i.attrs.zip i.eventTypes).flatMap eventFlds)).length else 0) + 0
    unfold eventDescSize
    by_cases hb : i.mask.testBit 12 = true
    · obtain ⟨h1, _, h3, _⟩ := h.events hb
      rw [if_neg (by omega), if_pos hb, if_pos hb, image_append, image_cons, image_one, List.length_append, List.length_append,
        u32_length, u32_length, image_flatMap, flatMap_length, Nat.add_zero]
      refine congrArg (8 + ·) ?_
      refine sum_congr fun x hx => ?_
      obtain ⟨_, _, h5, _, _⟩ := h3 x hx
      unfold eventFlds
      rw [image_append, image_append, image_cons, image_one, List.length_append, List.length_append, List.length_append,
        u32_length, attr_image_length, words_length (u64_length false), ← storage_eq h5]
      omega
    · rw [if_neg hb, if_neg hb]; split <;> rfl
  · show topologySize i.topology = (if i.mask.testBit 13 then (image false (counted (fun s => [strF s]) i.topology.cores ++
      counted (fun s => [strF s]) i.topology.threads ++ i.topology.cpus.flatMap (fun c => [u32F c.1, u32F c.2]))).length else 0) +
      (if i.mask.testBit 13 then 0 else 8)
    have h1 := h.topology
    by_cases hb : i.mask.testBit 13 = true
    · rw [if_pos hb] at h1 ⊢
      rw [if_pos hb]
      rw [image_append, image_append, List.length_append, List.length_append, image_flatMap, cpus_length,
        counted_length (g := storageSize) (fun s hs => by rw [image_one]; exact storage_eq (h1.1.2 s hs)),
        counted_length (g := storageSize) (fun s hs => by rw [image_one]; exact storage_eq (h1.2.1.2 s hs))]
      unfold topologySize
      omega
    · rw [if_neg hb] at h1 ⊢; rw [if_neg hb, h1]; rfl
  · show numaSize i.numa = (if i.mask.testBit 14 then (image false (counted (fun n => [u32F n.id, u64F n.total, u64F n.free, strF n.cpus])
      i.numa)).length else 0) + (if i.mask.testBit 14 then 0 else 4)
    have h1 := h.numa
    by_cases hb : i.mask.testBit 14 = true
    · rw [if_pos hb] at h1 ⊢
      rw [if_pos hb, counted_length (g := fun n => 4 + (8 + 8) + storageSize n.cpus) (fun n hn => by
        rw [image_cons, image_cons, image_cons, image_one, List.length_append, List.length_append, List.length_append,
          u32_length, u64_length, u64_length, ← storage_eq (h1.2 n hn).2.2.2]; omega)]
      rfl
    · rw [if_neg hb] at h1 ⊢; rw [if_neg hb, h1]; rfl
  · show 0 = (if i.mask.testBit 15 then 0 else 0) + 0
    split <;> rfl
  · show pmusSize i.pmus = (if i.mask.testBit 16 then (image false (counted (fun m => [u32F m.1, strF m.2]) i.pmus)).length else 0) +
      (if i.mask.testBit 16 then 0 else 4)
    have h1 := h.pmus
    by_cases hb : i.mask.testBit 16 = true
    · rw [if_pos hb] at h1 ⊢
      rw [if_pos hb, counted_length (g := fun m => 4 + storageSize m.2) (fun m hm => by
        rw [image_cons, image_one, List.length_append, u32_length, ← storage_eq (h1.2.2 m hm).2])]
      rfl
    · rw [if_neg hb] at h1 ⊢; rw [if_neg hb, h1]; rfl
  · show groupsSize i.groups = (if i.mask.testBit 17 then (image false (counted (fun g => [strF g.name, u32F g.leader, u32F g.members])
      i.groups)).length else 0) + (if i.mask.testBit 17 then 0 else 4)
    have h1 := h.groups
    by_cases hb : i.mask.testBit 17 = true
    · rw [if_pos hb] at h1 ⊢
      rw [if_pos hb, counted_length (g := fun g => storageSize g.name + 4 + 4) (fun g hg => by
        rw [image_cons, image_cons, image_one, List.length_append, List.length_append, u32_length, u32_length,
          ← storage_eq (h1.2 g hg).1])]
      rfl
    · rw [if_neg hb] at h1 ⊢; rw [if_neg hb, h1]; rfl
  · show hybridsSize i.hybrids = (if i.mask.testBit 30 then (image false (counted (fun h => [strF h.pmu, strF (h.cpus.getD [])])
      i.hybrids)).length else 0) + (if i.mask.testBit 30 then 0 else 4)
    have h1 := h.hybrids
    by_cases hb : i.mask.testBit 30 = true
    · rw [if_pos hb] at h1 ⊢
      rw [if_pos hb]
      unfold hybridsSize
      rw [counted_length (g := fun h => storageSize h.pmu + storageSize (match h.cpus with
        | some c => c
        | none => formatCPUNumbers h.cpuList)) (fun g hg => by
          obtain ⟨k1, t, k2, k3, _⟩ := h1.2 g hg
          rw [image_cons, image_one, List.length_append, k2]
          simp only [Option.getD_some]
          rw [storage_eq k1, storage_eq k3]), Nat.add_zero]
      rfl
    · rw [if_neg hb] at h1 ⊢; rw [if_neg hb, h1]; rfl

theorem sum_add {α : Type} {f g : α → Nat} : ∀ l : List α, (l.map (fun a => f a + g a)).sum = (l.map f).sum + (l.map g).sum
  | [] => rfl
  | a :: l => by simp only [List.map_cons, List.sum_cons, sum_add l]; omega

/-- C48: the space that is reserved for the metadata is the space it takes, plus the numbers of entries of the lists that
are not there. -/
theorem metadata_size (md5 : Bytes → Nat) (i : Info) (pos : Nat) (h : Faithful md5 i)
    (hcmd : i.mask.testBit 11 = true → i.cmdTokens ≠ []) :
    metadataSize i = (metadataImage false i pos).length + (if i.mask.testBit 13 then 0 else 8) +
      (if i.mask.testBit 14 then 0 else 4) + (if i.mask.testBit 16 then 0 else 4) + (if i.mask.testBit 17 then 0 else 4) +
      (if i.mask.testBit 30 then 0 else 4) := by
  rw [metadataSize_eq, mask_supported h.mask, numBits_eq h.mask, metadata_length]
  unfold features
  rw [contents_length, sum_congr (fun t ht => feature_size md5 h hcmd ht), sum_add]
  have : (known.map (slack i)).sum = (if i.mask.testBit 13 then 0 else 8) +
      (if i.mask.testBit 14 then 0 else 4) + (if i.mask.testBit 16 then 0 else 4) + (if i.mask.testBit 17 then 0 else 4) +
      (if i.mask.testBit 30 then 0 else 4) := by
    simp only [known, List.map_cons, List.map_nil, List.sum_cons, List.sum_nil, slack]
    omega
  rw [this]
  omega

/-- C48: so the metadata always fits behind the data of a recording in the space reserved for it. -/
theorem metadata_fits (md5 : Bytes → Nat) (i : Info) (w : Writer) (h : Faithful md5 i)
    (hcmd : i.mask.testBit 11 = true → i.cmdTokens ≠ []) (hw : w.Ok) (hroom : w.off + metadataSize i ≤ w.buf.length) :
    writeMetadata i i.mask w.off w = some (some (), { w with
      buf := overwrite w.buf w.off (metadataImage false i w.off)
      off := w.off + (metadataImage false i w.off).length }) := by
  refine write_metadata md5 i w h hw ?_
  have := metadata_size md5 i w.off h hcmd
  by_cases hb : i.mask.testBit 30 = true
  · rw [if_pos hb] at this ⊢; omega
  · rw [if_neg hb] at this ⊢; omega

example : metadataSize sampleInfo = (metadataImage false sampleInfo 104).length := by
  have h := metadata_size _ sampleInfo 104 sampleInfo_faithful (by decide)
  have h1 : sampleInfo.mask.testBit 13 = true := by decide
  have h2 : sampleInfo.mask.testBit 14 = true := by decide
  have h3 : sampleInfo.mask.testBit 16 = true := by decide
  have h4 : sampleInfo.mask.testBit 17 = true := by decide
  have h5 : sampleInfo.mask.testBit 30 = true := by decide
  rw [if_pos h1, if_pos h2, if_pos h3, if_pos h4, if_pos h5] at h
  exact h

end Verif.Meta
