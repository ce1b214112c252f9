import Verif.File.Pipe

/-! Reading a whole recording from a pipe. -/

namespace Verif.File
open Verif.Buffer Verif.Event Verif.Sample Verif.Attr Verif.Names Verif.Text Verif.Util Verif.Meta Verif.Serial Verif.Data

theorem featureFlds_stored (i : Info) {t : Nat} (h : t ≠ 2) : featureFlds (stored i) t = featureFlds i t := by
  unfold featureFlds
  split <;> first | rfl | exact absurd rfl h

theorem pipeFeatures_ne {i : Info} {t : Nat} (h : t ∈ pipeFeatures i) : t ≠ 2 := by
  unfold pipeFeatures at h
  rintro rfl
  simp at h

theorem pipe_header {r : Reader} {tail : Serial.Bytes} (hr : r.Ok) (hc : r.cross = false)
    (hb : r.buf = Meta.image false [.raw [80, 69, 82, 70, 73, 76, 69, 50], u64F 16] ++ tail) (ho : r.off = 0) :
    readHeader r = some (some { size := 16 }, { r with off := 16 }) := by
  have hd : r.buf.drop r.off = (u64F magic).image false ++ ((u64F 16).image false ++ tail) := by
    rw [ho, List.drop_zero, hb, ← List.append_assoc, Meta.image_cons, Meta.image_one, magic_image]
  have step1 := gets_u64 (cross := false) (o := r.off) (v := magic) (by decide) r _ hr hc rfl hd (Nat.zero_le _)
  obtain ⟨o1, d1⟩ := ok_advance hr hd
  rw [u64_length, ho] at step1 o1 d1
  have step2 := gets_u64 (cross := false) (o := 0 + 8) (v := 16) (by decide) { r with off := 0 + 8 } _ o1 hc rfl d1 (Nat.zero_le _)
  rw [u64_length] at step2
  have hset : setCross false { r with off := 0 + 8 } = some (some (), { r with off := 0 + 8 }) := by
    unfold setCross
    obtain ⟨_, _, _, c⟩ := r
    simp only at hc
    subst hc
    rfl
  unfold readHeader
  rw [bind_of (p := tell) rfl, bind_of (p := check (decide (r.off = 0))) (by rw [ho]; rfl), bind_of step1, if_neg (by decide)]
  rw [show (decide (magic ≠ magic)) = false by decide]
  rw [bind_of hset, bind_of step2, bind_of (p := tell) rfl, bind_of (p := check (decide (0 + 8 + 8 = 16))) rfl, if_pos rfl]
  rfl

/-- The records before the events are read. -/
theorem reads_before {cfg : Cfg} {x : Recording} (h : Complete cfg.env x) (hp : Pipeable x) {ser : Ser}
    (hs : registerAll {} false (x.info.attrs.map deserializeFileAttr) = some ser) :
    ∃ b : Meta.St, Reads cfg {} 0 (((pipeFeatures x.info).flatMap (fun t => pipeRecord 80 0 (featureBody x.info t)) ++
      x.info.attrs.flatMap (fun f => pipeRecord 64 0 (attrBody f))) ++
      (if x.info.mask.testBit 1 then tracingRecord x.info else []) ++
      (if x.info.mask.testBit 2 then Meta.image false (x.info.buildIds.flatMap buildIdFlds) else [])) { base := b } 0 ∧
      b.info = pipeInfo (stored x.info) ∧ b.ser = ser := by
  -- features
  have hfe : ∀ t ∈ pipeFeatures x.info, featureBody (stored x.info) t = featureBody x.info t := by
    intro t ht
    unfold featureBody
    rw [featureFlds_stored _ (pipeFeatures_ne ht)]
  obtain ⟨b1, r1, i1, s1, c1⟩ := reads_features (cfg := cfg) h.info ser
    (fun t => x.info.mask.testBit t && !([1, 2, 15].contains t)) (fun _ => rfl) Meta.known (st := {}) (n := 0) (by decide)
    (fun t ht => by
      have ht' : t ∈ pipeFeatures x.info := ht
      rw [hfe t ht']
      exact hp.features t ht')
    (by
      intro t ht
      unfold Blank
      split <;> first | rfl | exact True.intro)
    (fun _ => Or.inl (by decide)) (fun _ => hs)
  have e12 : (12 ∈ Meta.known.filter (fun t => x.info.mask.testBit t && !([1, 2, 15].contains t))) ↔ x.info.mask.testBit 12 = true := by
    rw [List.mem_filter]
    constructor
    · intro h; simpa using h.2
    · intro h; exact ⟨by decide, by rw [h]; decide⟩
  have r1' : Reads cfg {} 0 ((pipeFeatures x.info).flatMap (fun t => pipeRecord 80 0 (featureBody x.info t))) { base := b1 } 0 := by
    have e : (Meta.known.filter (fun t => x.info.mask.testBit t && !([1, 2, 15].contains t))).flatMap (fun t => pipeRecord 80 0 (featureBody (stored x.info) t)) =
        (pipeFeatures x.info).flatMap (fun t => pipeRecord 80 0 (featureBody x.info t)) := by
      show (pipeFeatures x.info).flatMap _ = _
      rw [List.flatMap_def, List.flatMap_def]
      congr 1
      apply List.map_congr_left
      intro t ht
      rw [hfe t ht]
    rw [e] at r1
    exact r1
  -- attributes
  obtain ⟨b2, r2, i2, s2⟩ : ∃ b2 : Meta.St, Reads cfg { base := b1 } 0 (x.info.attrs.flatMap (fun f => pipeRecord 64 0 (attrBody f))) { base := b2 } 0 ∧
      b2.info = (if x.info.mask.testBit 12 then b1.info else { b1.info with attrs := x.info.attrs }) ∧ b2.ser = ser := by
    cases h12 : x.info.mask.testBit 12
    · obtain ⟨-, hpw⟩ := hp.different h12
      have n12 : ¬ (12 ∈ Meta.known.filter (fun t => x.info.mask.testBit t && !([1, 2, 15].contains t))) := by
        rw [e12, h12]; decide
      rw [if_neg n12] at s1 c1
      have c2 := (Prod.mk.injEq .. ▸ c1 : _ ∧ _)
      have ha : b1.info.attrs = [] := by
        rw [i1]
        have : ∀ (l : List Nat) (j : Info), 12 ∉ l → (l.foldl (addFeature (stored x.info)) j).attrs = j.attrs := by
          intro l
          induction l with
          | nil => intro j _; rfl
          | cons t l ih =>
            intro j hn
            rw [List.mem_cons, not_or] at hn
            rw [List.foldl_cons, ih _ hn.2]
            unfold addFeature withFeature
            split <;> first | rfl | exact absurd rfl hn.1
        rw [this _ _ n12]
      have rr := reads_attrs (cfg := cfg) (n := 0) x.info.attrs (st := { base := b1 }) (ser := ser) h.attrs hp.attrs hpw
        (by
          intro f _
          simp only [c2.1, c2.2]
          exact ⟨fun _ h => (by cases h), fun _ _ h => by cases h⟩)
        (by simp only [s1]; exact hs)
      refine ⟨_, rr, ?_, rfl⟩
      unfold addAttrs
      simp [ha]
    · have n12 := e12.mpr h12
      rw [if_pos n12] at s1 c1
      have c2 := (Prod.mk.injEq .. ▸ c1 : _ ∧ _)
      refine ⟨b1, reads_seen x.info.attrs h.attrs hp.attrs ?_, rfl, s1⟩
      intro f hf
      refine ⟨?_, fun id hid => ?_⟩
      · simp only [c2.2]
        exact List.mem_map.mpr ⟨f, hf, rfl⟩
      · simp only [c2.1]
        refine List.mem_flatMap.mpr ⟨f, hf, ?_⟩
        cases hi : f.ids with
        | nil => rw [hi] at hid; cases hid
        | cons a l =>
          rw [hi] at hid
          cases hid
          simp
  -- nothing of tracing data and build IDs was read
  have hno : ∀ (t : Nat), (t = 1 ∨ t = 2) → Blank b2.info t := by
    intro t ht
    have h1 : ∀ (l : List Nat) (j : Info), 1 ∉ l → 2 ∉ l → (l.foldl (addFeature (stored x.info)) j).tracing = j.tracing ∧
        (l.foldl (addFeature (stored x.info)) j).buildIds = j.buildIds := by
      intro l
      induction l with
      | nil => intro j _ _; exact ⟨rfl, rfl⟩
      | cons t l ih =>
        intro j hn hm
        rw [List.mem_cons, not_or] at hn hm
        rw [List.foldl_cons]
        obtain ⟨k1, k2⟩ := ih (addFeature (stored x.info) j t) hn.2 hm.2
        rw [k1, k2]
        unfold addFeature withFeature
        constructor <;> (split <;> first | rfl | exact absurd rfl hn.1 | exact absurd rfl hm.1)
    have hb := h1 (pipeFeatures x.info) {} (by unfold pipeFeatures; simp) (by unfold pipeFeatures; simp)
    have i1' : b1.info = (pipeFeatures x.info).foldl (addFeature (stored x.info)) {} := i1
    rw [← i1'] at hb
    rw [i2]
    rcases ht with rfl | rfl
    · show (Info.tracing _) = []
      split
      · exact hb.1
      · exact hb.1
    · show (Info.buildIds _) = []
      split
      · exact hb.2
      · exact hb.2
  -- tracing data
  obtain ⟨b3, r3, i3, s3, hb3⟩ : ∃ b3 : Meta.St, Reads cfg { base := b2 } 0 (if x.info.mask.testBit 1 then tracingRecord x.info else []) { base := b3 } 0 ∧
      b3.info = (if x.info.mask.testBit 1 then addFeature (stored x.info) b2.info 1 else b2.info) ∧ b3.ser = ser ∧ b3.info.buildIds = [] := by
    cases h1 : x.info.mask.testBit 1
    · exact ⟨b2, Reads.nil, rfl, s2, hno 2 (Or.inr rfl)⟩
    · refine ⟨{ b2 with info := addFeature (stored x.info) b2.info 1 }, Reads.step ?_ (gets_tracingRecord (i := x.info) (hp.tracing h1) (hno 1 (Or.inl rfl))),
        rfl, s2, hno 2 (Or.inr rfl)⟩
      intro h0
      have := congrArg List.length h0
      simp [tracingRecord, Meta.image, u32F, u16F, Fld.image, Item.encode, encodeInt_length] at this
  -- build IDs
  obtain ⟨b4, r4, i4, s4⟩ : ∃ b4 : Meta.St, Reads cfg { base := b3 } 0 (if x.info.mask.testBit 2 then Meta.image false (x.info.buildIds.flatMap buildIdFlds) else [])
      { base := b4 } 0 ∧ b4.info = (if x.info.mask.testBit 2 then addFeature (stored x.info) b3.info 2 else b3.info) ∧ b4.ser = ser := by
    cases h2 : x.info.mask.testBit 2
    · exact ⟨b3, Reads.nil, rfl, s3⟩
    · have hbi : (stored x.info).buildIds = x.info.buildIds := by unfold stored; simp [h2]
      have hok := h.info.buildIds
      rw [show (stored x.info).mask.testBit 2 = true from h2, if_pos rfl, hbi] at hok
      have rr := reads_buildIds (cfg := cfg) (n := 0) x.info.buildIds (st := { base := b3 }) hok
      unfold addIds at rr
      rw [if_neg (hp.buildIds h2)] at rr
      refine ⟨_, rr, ?_, s3⟩
      simp only [hb3, List.nil_append, if_true]
      unfold addFeature withFeature
      simp only [hbi]
  refine ⟨b4, ((r1'.trans r2).trans r3).trans r4, ?_, s4⟩
  rw [i4, i3, i2, i1]
  rfl

/-- The bytes from a pipe are read as the recording. -/
theorem read_pipe {cfg : Cfg} {x : Recording} (h : Complete cfg.env x) (hp : Pipeable x) (hskip : cfg.skip = []) :
    ∃ st, readBytes cfg (pipeImage x) = some (some st) ∧ st.events = x.messages ∧ st.base.info = loaded cfg.env.md5 x ∧
      st.reported = (if cfg.callback then samplesOf x.messages else []) ∧
      registerAll {} false (x.info.attrs.map deserializeFileAttr) = some st.base.ser := by
  obtain ⟨ser, hs⟩ := accepted_of h.storable
  obtain ⟨b, hr1, hi, hb⟩ := reads_before h hp hs
  rw [pipeInfo_eq h.info hp.branches h.names] at hi
  have hr2 := reads_events (cfg := cfg) (n := 0) (i := x.info) hskip x.events (st := { base := b }) h.events (by simp only [hb]; exact hs)
    (by simp only [hi]; rfl) (by
      have := hp.size
      unfold pipeImage at this
      rw [List.length_append] at this
      show (dataImage x).length < _
      omega)
  have hall := hr1.trans hr2
  have hbytes : pipeImage x = Meta.image false [.raw [80, 69, 82, 70, 73, 76, 69, 50], u64F 16] ++
      ((((pipeFeatures x.info).flatMap (fun t => pipeRecord 80 0 (featureBody x.info t)) ++
      x.info.attrs.flatMap (fun f => pipeRecord 64 0 (attrBody f))) ++
      (if x.info.mask.testBit 1 then tracingRecord x.info else []) ++
      (if x.info.mask.testBit 2 then Meta.image false (x.info.buildIds.flatMap buildIdFlds) else [])) ++ dataImage x) := by
    unfold pipeImage
    simp only [List.append_assoc]
  generalize hR : (((pipeFeatures x.info).flatMap (fun t => pipeRecord 80 0 (featureBody x.info t)) ++
      x.info.attrs.flatMap (fun f => pipeRecord 64 0 (attrBody f))) ++
      (if x.info.mask.testBit 1 then tracingRecord x.info else []) ++
      (if x.info.mask.testBit 2 then Meta.image false (x.info.buildIds.flatMap buildIdFlds) else [])) ++ dataImage x = rest at hbytes
  have hall : Reads cfg {} 0 rest (absorbAll cfg { base := b } x.messages) 0 := by rw [← hR]; exact hall
  have h16 : (Meta.image false [.raw [80, 69, 82, 70, 73, 76, 69, 50], u64F 16]).length = 16 := by decide
  have hlen : (pipeImage x).length = 16 + rest.length := by rw [hbytes, List.length_append, h16]
  have hsz := hp.size
  unfold readBytes readFromData
  generalize hRe : Reader.new (pipeImage x) false = r
  have hrb : r.buf = pipeImage x := by rw [← hRe]; rfl
  have hrc : r.cross = false := by rw [← hRe]; rfl
  have hro : r.off = 0 := by rw [← hRe]; rfl
  have hrs : r.size = (pipeImage x).length := by rw [← hRe]; rfl
  have hr : r.Ok := ⟨by rw [hrs, hrb], by omega, by rw [hrb]; omega⟩
  have hhead := pipe_header hr hrc (hrb.trans hbytes) hro
  rw [bind_of (p := dataSize) rfl, if_neg (by omega), bind_of hhead, if_neg (by decide), if_neg (by decide)]
  unfold readPiped
  rw [bind_of (p := tell) rfl, bind_of (p := check (decide (16 = 16))) rfl]
  obtain ⟨fuel, hf, e⟩ := hall { r with off := 16 } [] (r.size + 1) ⟨hr.1, by simp only; omega, hr.2.2⟩ hrc
    (by
      show r.buf.drop 16 = _
      rw [hrb, hbytes, List.drop_left' h16, List.append_nil])
    (by rw [List.append_nil]; omega)
  have hend : readPipedRecords cfg (r.size + 1) {} 0 { r with off := 16 } =
      some (some (absorbAll cfg { base := b } x.messages, 0), { r with off := 16 + rest.length }) := by
    have e' : readPipedRecords cfg (r.size + 1) {} 0 { r with off := 16 } = _ := e
    rw [e']
    unfold readPipedRecords
    rw [bind_of (p := tell) rfl, bind_of (p := dataSize) rfl, if_neg]
    · rfl
    · show ¬ (16 + rest.length < r.size)
      omega
  have hst : (absorbAll cfg { base := b } x.messages).base.info = loaded cfg.env.md5 x ∧
      (absorbAll cfg { base := b } x.messages).base.ser = ser := by
    rw [absorbAll_eq]
    refine ⟨?_, hb⟩
    simp only [hi]
    rfl
  have hlast : (if (absorbAll cfg { base := b } x.messages).base.info.mask.testBit 12 = false ∧
      0 = (absorbAll cfg { base := b } x.messages).base.info.attrs.length then setBit (absorbAll cfg { base := b } x.messages) 12
      else absorbAll cfg { base := b } x.messages) = absorbAll cfg { base := b } x.messages := by
    rw [if_neg]
    rw [hst.1]
    rintro ⟨h1, h2⟩
    have := (hp.different h1).1
    have h3 : x.info.attrs.length = 0 := h2.symm
    exact this (List.length_eq_zero_iff.mp h3)
  refine ⟨absorbAll cfg { base := b } x.messages, ?_, ?_, hst.1, ?_, ?_⟩
  · have e2 : (do
        let __x ← readPipedRecords cfg (r.size + 1) {} 0
        pure (if __x.1.base.info.mask.testBit 12 = false ∧ __x.2 = __x.1.base.info.attrs.length then setBit __x.1 12 else __x.1) : P Data.St)
        { r with off := 16 } = some (some (absorbAll cfg { base := b } x.messages), { r with off := 16 + rest.length }) := by
      rw [bind_of hend]
      simp only [hlast]
      rfl
    exact congrArg (Option.map (·.1)) e2
  · rw [absorbAll_eq]; rfl
  · rw [absorbAll_eq]; simp
  · rw [hst.2]; exact hs

end Verif.File
