import Verif.Meta.Write

/-! # C28: the metadata of a recording -/

namespace Verif.Meta
open Verif.Buffer Verif.Event Verif.Sample Verif.Attr Verif.Names Verif.Text Verif.Util

theorem features_eq {mask : Nat} (h : ∀ b, mask.testBit b = true → b ∈ known) :
    featureTypes.filter mask.testBit = features mask := by
  have e : known = featureTypes.filter (fun t => decide (t ∈ known)) := by decide
  unfold features
  conv => rhs; rw [e]
  rw [List.filter_filter]
  apply List.filter_congr
  intro t _
  cases ht : mask.testBit t
  · rfl
  · simp [h t ht]

theorem numBits_eq {mask : Nat} (h : ∀ b, mask.testBit b = true → b ∈ known) :
    numBits mask = (features mask).length := by
  have e : known = (List.range 64).filter (fun t => decide (t ∈ known)) := by decide
  unfold numBits features
  congr 1
  conv => rhs; rw [e]
  rw [List.filter_filter]
  apply List.filter_congr
  intro t _
  cases ht : mask.testBit t
  · rfl
  · simp [h t ht]

theorem supported_bit {b : Nat} : supported.testBit b = decide (b ∈ known) := by
  by_cases h : b < 31
  · have key : ∀ b : Fin 31, supported.testBit b.val = decide (b.val ∈ known) := by decide
    exact key ⟨b, h⟩
  · have h1 : supported < 2 ^ b := Nat.lt_of_lt_of_le (by decide) (Nat.pow_le_pow_right (by omega) (show 31 ≤ b by omega))
    rw [Nat.testBit_lt_two_pow h1]
    symm
    rw [decide_eq_false_iff_not]
    simp only [known, List.mem_cons, List.not_mem_nil, or_false]
    omega

theorem mask_supported {mask : Nat} (h : ∀ b, mask.testBit b = true → b ∈ known) : mask &&& supported = mask := by
  apply Nat.eq_of_testBit_eq
  intro b
  rw [Nat.testBit_and, supported_bit]
  cases hb : mask.testBit b
  · rfl
  · simp [h b hb]

theorem table_image (l : List (Nat × Nat)) : l.flatMap (fun s => toLE 8 s.1 ++ toLE 8 s.2) =
    image false (l.flatMap (fun s => [u64F s.1, u64F s.2])) := by
  rw [image_flatMap]
  congr 1

theorem sections_length : ∀ (pos : Nat) (c : List Bytes), (sectionsFrom pos c).length = c.length
  | _, [] => rfl
  | pos, b :: l => by rw [sectionsFrom, List.length_cons, List.length_cons, sections_length]

theorem table_length (foreign : Bool) : ∀ l : List (Nat × Nat),
    (image foreign (l.flatMap (fun s => [u64F s.1, u64F s.2]))).length = l.length * 16
  | [] => rfl
  | s :: l => by
    rw [List.flatMap_cons, image_append, List.length_append, table_length foreign l, image_cons, image_one,
      List.length_append, u64_length, u64_length, List.length_cons]
    omega

theorem overwrite_prepend {buf a b : Bytes} {pos : Nat} (h : pos + a.length + b.length ≤ buf.length) :
    overwrite (overwrite buf (pos + a.length) b) pos a = overwrite buf pos (a ++ b) := by
  unfold overwrite
  have e1 : (buf.take (pos + a.length) ++ b ++ buf.drop (pos + a.length + b.length)).take pos = buf.take pos := by
    rw [List.append_assoc, List.take_append_of_le_length (by simp; omega), List.take_take, Nat.min_eq_left (by omega)]
  have e2 : (buf.take (pos + a.length) ++ b ++ buf.drop (pos + a.length + b.length)).drop (pos + a.length) =
      b ++ buf.drop (pos + a.length + b.length) := by
    rw [List.append_assoc, List.drop_left' (by simp; omega)]
  rw [e1, e2]
  simp [Nat.add_assoc]

/-- The length of the metadata. -/

theorem metadata_length (foreign : Bool) (i : Info) (pos : Nat) :
    (metadataImage foreign i pos).length =
      (features i.mask).length * 16 + (contents foreign i (features i.mask)).flatten.length := by
  unfold metadataImage
  simp only [List.length_append, table_length, sections_length]
  simp [contents]

theorem content_le {foreign : Bool} {i : Info} : ∀ {l : List Nat} {t : Nat}, t ∈ l →
    (image foreign (featureFlds i t)).length ≤ (contents foreign i l).flatten.length
  | s :: l, t, h => by
    simp only [contents, List.map_cons, List.flatten_cons, List.length_append]
    rcases List.mem_cons.mp h with rfl | h
    · omega
    · have := content_le (foreign := foreign) (i := i) h
      simp only [contents] at this
      omega

/-- C28: the metadata is written as the file format has it. The room must suffice for it and, if the topology of a
hybrid machine is not written at its end, one byte more: at the end of the buffer not even nothing can be written. -/
theorem write_metadata (md5 : Bytes → Nat) (i : Info) (w : Writer) (h : Faithful md5 i) (hw : w.Ok)
    (hroom : w.off + (metadataImage false i w.off).length + (if i.mask.testBit 30 then 0 else 1) ≤ w.buf.length) :
    writeMetadata i i.mask w.off w = some (some (), { w with
      buf := overwrite w.buf w.off (metadataImage false i w.off)
      off := w.off + (metadataImage false i w.off).length }) := by
  have hlen := metadata_length false i w.off
  have hw' := hw
  obtain ⟨k1, k2, k3⟩ := hw
  have hputs : ∀ t ∈ featureTypes, i.mask.testBit t = true → Puts (writeFeature i t) (image false (featureFlds i t)) := by
    intro t _ ht
    refine puts_feature md5 h ht ?_
    have : t ∈ features i.mask := List.mem_filter.mpr ⟨h.mask t ht, ht⟩
    have := content_le (foreign := false) (i := i) this
    omega
  obtain ⟨css, hflat, hlast, hrun⟩ := writeFeatures_spec (i := i) (feats := i.mask) (fun h30 => by
    refine ⟨?_, by simp [featureFlds, counted]⟩
    have h1 := h.hybrids
    rw [if_pos h30] at h1
    exact fills_hybrids h1.2) featureTypes hputs
  rw [features_eq h.mask] at hflat hrun
  unfold writeMetadata
  rw [wbind_of (p := wtell) rfl]
  simp only [ne_eq, not_true, if_false, mask_supported h.mask, numBits_eq h.mask]
  have hadd : addSz w.off ((features i.mask).length * 16) = w.off + (features i.mask).length * 16 := by
    unfold addSz; omega
  rw [wbind_of (p := wseek _) rfl, hadd]
  have hok1 : Writer.Ok (w.seekSet (w.off + (features i.mask).length * 16)) := by
    unfold Writer.seekSet; exact ⟨k1, by simp only; omega, k3⟩
  have hfit : Fits w.buf.length (w.off + (features i.mask).length * 16) css := by
    by_cases h30 : i.mask.testBit 30 = true
    · obtain ⟨cs, c, e, hc⟩ := hlast (by decide) h30
      rw [h30] at hroom
      have := congrArg List.length hflat
      rw [e, List.flatten_append, List.length_append] at this
      rw [e]
      refine fits_of_le hc ?_
      simp at this hroom ⊢
      simp at hlen
      omega
    · rw [if_neg h30] at hroom
      refine fits_of_lt ?_
      have := congrArg List.length hflat
      omega
  have hr1 := (hrun _ hok1).1 (by unfold Writer.seekSet; exact hfit)
  unfold Writer.seekSet at hr1 hok1
  rw [show Writer.seekSet w (w.off + (features i.mask).length * 16) = { w with off := w.off + (features i.mask).length * 16 } from rfl,
    wbind_of hr1]
  simp only [sections_length]
  have hcl : (contents false i (features i.mask)).length = (features i.mask).length := by simp [contents]
  rw [hcl]
  simp only [not_true, if_false]
  rw [wbind_of (p := wtell) rfl, wbind_of (p := wseek _) rfl, table_image]
  have htl := table_length false (sectionsFrom (w.off + (features i.mask).length * 16) (contents false i (features i.mask)))
  rw [sections_length, hcl] at htl
  have hbl : w.off + (features i.mask).length * 16 + css.flatten.length ≤ w.buf.length := by
    have := congrArg List.length hflat
    omega
  have hol : (overwrite w.buf (w.off + (features i.mask).length * 16) css.flatten).length = w.buf.length :=
    overwrite_length hbl
  have hlt : w.off < w.buf.length := by
    by_cases h30 : i.mask.testBit 30 = true
    · have h1 : (30 : Nat) ∈ features i.mask := List.mem_filter.mpr ⟨h.mask 30 h30, h30⟩
      have := List.length_pos_of_mem h1
      omega
    · rw [if_neg h30] at hroom; omega
  have htab := (writes_data (b := image false ((sectionsFrom (w.off + (features i.mask).length * 16)
    (contents false i (features i.mask))).flatMap (fun s => [u64F s.1, u64F s.2]))) (by omega)
    ⟨overwrite w.buf (w.off + (features i.mask).length * 16) css.flatten, w.size, w.off⟩
    ⟨by simp only [hol]; exact k1, k2, by simp only [hol]; exact k3⟩).1
    ⟨by simp only [hol]; exact hlt, by simp only [hol]; omega, trivial⟩
  simp only [List.flatten_cons, List.flatten_nil, List.append_nil] at htab
  rw [show Writer.seekSet ⟨overwrite w.buf (w.off + (features i.mask).length * 16) css.flatten, w.size,
    w.off + (features i.mask).length * 16 + css.flatten.length⟩ w.off =
    ⟨overwrite w.buf (w.off + (features i.mask).length * 16) css.flatten, w.size, w.off⟩ from rfl, wbind_of htab,
    wbind_of (p := wtell) rfl]
  rw [htl]
  simp only [not_true, if_false]
  have himg : metadataImage false i w.off = image false ((sectionsFrom (w.off + (features i.mask).length * 16)
      (contents false i (features i.mask))).flatMap (fun s => [u64F s.1, u64F s.2])) ++ css.flatten := by
    unfold metadataImage
    simp only [hcl]
    rw [hflat]
  have hov := overwrite_prepend (buf := w.buf) (pos := w.off) (a := image false ((sectionsFrom (w.off + (features i.mask).length * 16)
      (contents false i (features i.mask))).flatMap (fun s => [u64F s.1, u64F s.2]))) (b := css.flatten) (by rw [htl]; exact hbl)
  rw [htl] at hov
  rw [hov, himg]
  simp only [List.length_append, htl]
  unfold wseek Writer.seekSet
  simp only [Nat.add_assoc]

/-- C28: with too little room nothing is written outside of it: writing returns false. -/
theorem write_metadata_refused (md5 : Bytes → Nat) (i : Info) (w : Writer) (h : Faithful md5 i) (hw : w.Ok)
    (hoff : w.off ≤ w.buf.length) (hsize : (metadataImage false i w.off).length < 2 ^ 63)
    (hroom : w.buf.length < w.off + (metadataImage false i w.off).length) :
    ∃ w', writeMetadata i i.mask w.off w = some (none, w') := by
  have hlen := metadata_length false i w.off
  have hw' := hw
  obtain ⟨k1, k2, k3⟩ := hw
  have hputs : ∀ t ∈ featureTypes, i.mask.testBit t = true → Puts (writeFeature i t) (image false (featureFlds i t)) := by
    intro t _ ht
    refine puts_feature md5 h ht ?_
    have : t ∈ features i.mask := List.mem_filter.mpr ⟨h.mask t ht, ht⟩
    have := content_le (foreign := false) (i := i) this
    omega
  obtain ⟨css, hflat, hlast, hrun⟩ := writeFeatures_spec (i := i) (feats := i.mask) (fun h30 => by
    refine ⟨?_, by simp [featureFlds, counted]⟩
    have h1 := h.hybrids
    rw [if_pos h30] at h1
    exact fills_hybrids h1.2) featureTypes hputs
  rw [features_eq h.mask] at hflat hrun
  have hadd : addSz w.off ((features i.mask).length * 16) = w.off + (features i.mask).length * 16 := by
    have : (features i.mask).length ≤ 18 := List.length_filter_le ..
    unfold addSz; omega
  have hok1 : Writer.Ok ⟨w.buf, w.size, w.off + (features i.mask).length * 16⟩ := by
    have : (features i.mask).length ≤ 18 := List.length_filter_le ..
    exact ⟨k1, by simp only; omega, k3⟩
  unfold writeMetadata
  rw [wbind_of (p := wtell) rfl]
  simp only [ne_eq, not_true, if_false, mask_supported h.mask, numBits_eq h.mask]
  rw [wbind_of (p := wseek _) rfl, hadd]
  rw [show Writer.seekSet w (w.off + (features i.mask).length * 16) = { w with off := w.off + (features i.mask).length * 16 } from rfl]
  obtain ⟨a1, a2⟩ := hrun _ hok1
  by_cases hf : Fits w.buf.length (w.off + (features i.mask).length * 16) css
  · -- only the table does not fit
    have hcss : css = [] := by
      by_cases e : css = []
      · exact e
      · have := fits_end e hf
        have := congrArg List.length hflat
        omega
    subst hcss
    have hr1 := a1 hf
    rw [wbind_of hr1]
    have hcl : (contents false i (features i.mask)).length = (features i.mask).length := by simp [contents]
    simp only [sections_length, hcl, not_true, if_false, List.flatten_nil, overwrite_nil', List.length_nil, Nat.add_zero]
    rw [wbind_of (p := wtell) rfl, wbind_of (p := wseek _) rfl, table_image]
    have htl := table_length false (sectionsFrom (w.off + (features i.mask).length * 16) (contents false i (features i.mask)))
    rw [sections_length, hcl] at htl
    obtain ⟨w', hw'⟩ := (writes_data (b := image false ((sectionsFrom (w.off + (features i.mask).length * 16)
      (contents false i (features i.mask))).flatMap (fun s => [u64F s.1, u64F s.2]))) (by
        have : (features i.mask).length ≤ 18 := List.length_filter_le ..
        omega) w ⟨k1, k2, k3⟩).2 (by
          rintro ⟨_, h2, _⟩
          rw [htl] at h2
          have := congrArg List.length hflat
          simp only [List.flatten_nil, List.length_nil] at this
          omega)
    refine ⟨w', ?_⟩
    rw [wbind_def, show Writer.seekSet ⟨w.buf, w.size, w.off + (features i.mask).length * 16⟩ w.off = w from rfl, hw']
  · obtain ⟨w', hw'⟩ := a2 hf
    exact ⟨w', by rw [wbind_def, hw']⟩

end Verif.Meta
