import Verif.File.Read

/-! Reading the header, the attributes and the whole file. -/

namespace Verif.File
open Verif.Buffer Verif.Event Verif.Sample Verif.Attr Verif.Names Verif.Text Verif.Util Verif.Meta Verif.Serial Verif.Data

/-! ## Attributes -/

/-- Each section of a list starts where the one before ends. -/
theorem sections_at {buf : Serial.Bytes} : ∀ (l : List ProtoFileAttr) {pos : Nat} {t : Serial.Bytes},
    buf.drop pos = (l.map idsImage).flatten ++ t → pos ≤ buf.length →
    ∀ y ∈ l.zip (sectionsFrom pos (l.map idsImage)), y.1 ∈ l ∧ y.2.1 + y.2.2 ≤ buf.length ∧ y.2.2 = 8 * y.1.ids.length ∧
      ∃ t, buf.drop y.2.1 = idsImage y.1 ++ t
  | [], _, _, _, _ => by intro y hy; cases hy
  | f :: l, pos, t, h, hpos => by
    rw [List.map_cons, List.flatten_cons, List.append_assoc] at h
    have hlen := congrArg List.length h
    rw [List.length_drop, List.length_append] at hlen
    have hid : (idsImage f).length = 8 * f.ids.length := by
      unfold idsImage
      rw [Meta.words_length (fun v => u64_length false v), Nat.mul_comm]
    have hnext : buf.drop (pos + (idsImage f).length) = (l.map idsImage).flatten ++ t := by
      rw [← List.drop_drop, h, List.drop_left]
    intro y hy
    rw [List.map_cons, sectionsFrom, List.zip_cons_cons] at hy
    rcases List.mem_cons.mp hy with rfl | hy
    · exact ⟨List.mem_cons_self .., by simp only; omega, hid, _, h⟩
    · obtain ⟨k1, k2⟩ := sections_at l hnext (by omega) y hy
      exact ⟨List.mem_cons_of_mem _ k1, k2⟩

/-- The state after attributes were added. -/
def addAttrs (st : Meta.St) (ser : Ser) (l : List ProtoFileAttr) : Meta.St :=
  { info := { st.info with attrs := st.info.attrs ++ l }
    ser := ser
    seenIds := st.seenIds ++ l.flatMap (fun x => x.ids.take 1)
    seenConfigs := st.seenConfigs ++ l.map (fun x => x.attr.config) }

theorem attr_step {p : ProtoAttr} {ids : List Nat} {s : Nat × Nat} {st : Meta.St} {s1 : Ser} {r : Reader} {tail t : Serial.Bytes}
    (hr : r.Ok) (hc : r.cross = false) (h1 : AttrOk p) (hids : ∀ id ∈ ids, id < 2 ^ 64)
    (hd : r.buf.drop r.off = Meta.image false (attrFlds (attrOf p) ++ [u64F s.1, u64F s.2]) ++ tail)
    (hin : s.1 + s.2 ≤ r.buf.length) (h8 : s.2 = 8 * ids.length) (hs : r.buf.drop s.1 = Meta.image false (ids.map u64F) ++ t)
    (hcr : createReader st.ser ⟨attrOf p, ids⟩ false = (true, s1)) :
    readAttr st r = some (some (addAttrs st s1 [⟨p, ids⟩]), { r with off := r.off + 112 }) := by
  rw [Meta.image_append, List.append_assoc] at hd
  have hlen := congrArg List.length hd
  have hl2 : (Meta.image false [u64F s.1, u64F s.2]).length = 16 := by
    rw [Meta.image_cons, Meta.image_one, List.length_append, u64_length, u64_length]
  rw [List.length_drop, List.length_append, List.length_append, attr_image_length, hl2] at hlen
  have ha := gets_attr (o := r.off) h1 r _ hr hc rfl hd (Nat.zero_le _)
  obtain ⟨ho, hd'⟩ := ok_advance hr hd
  rw [attr_image_length] at ha ho hd'
  have hsec := gets_fileSection (r := { r with off := r.off + 96 }) ho hc (by exact hin) hd' rfl
  simp only at hsec
  obtain ⟨hk1, hk2, hk3⟩ := hr
  have ho2 : Reader.Ok { r with off := r.off + 96 + 16 } := ⟨hk1, by simp only; omega, hk3⟩
  obtain ⟨hs1, hs2, -, -⟩ := seek_drop (r := { r with off := r.off + 96 + 16 }) ho2 (pos := s.1) hs (by simp only; omega)
  have hi := gets_ids (cross := false) (o := s.1) hids _ t hs2 hc rfl hs (Nat.zero_le _)
  simp only at hi hs1
  have hlast : seek (r.off + 96 + 16) { r with off := s.1 + (Meta.image false (ids.map u64F)).length } =
      some (some (), { r with off := r.off + 96 + 16 }) := by
    apply seek_of
    show r.off + 96 + 16 ≤ r.size
    omega
  have hadd : addAttr st ⟨attrOf p, ids⟩ false = (pure (addAttrs st s1 [⟨p, ids⟩]) : P Meta.St) := by
    unfold addAttr addAttrs
    simp only [hcr, if_true]
    unfold serializeFileAttr
    simp only [serialize_eq h1]
    simp
    rfl
  unfold readAttr
  rw [bind_of ha, bind_of hsec, bind_of (p := tell) rfl, bind_of hs1]
  unfold readUniqueIDs
  rw [h8, Nat.mul_div_cancel_left _ (by decide : 0 < 8), bind_of hi, bind_of hlast, bind_of (p := isCross) rfl]
  simp only [hc, hadd]
  rfl

theorem attrs_loop : ∀ (l : List (ProtoFileAttr × (Nat × Nat))) {st : Meta.St} {ser : Ser} {r : Reader} {tail : Serial.Bytes}, r.Ok →
    r.cross = false → (∀ y ∈ l, AttrOk y.1.attr ∧ ∀ id ∈ y.1.ids, id < 2 ^ 64) →
    (∀ y ∈ l, y.2.1 + y.2.2 ≤ r.buf.length ∧ y.2.2 = 8 * y.1.ids.length ∧ ∃ t, r.buf.drop y.2.1 = idsImage y.1 ++ t) →
    r.buf.drop r.off = (l.flatMap fun y => Meta.image false (attrFlds (attrOf y.1.attr) ++ [u64F y.2.1, u64F y.2.2])) ++ tail →
    registerAll st.ser false (l.map fun y => deserializeFileAttr y.1) = some ser →
    readAttrs l.length st r = some (some (addAttrs st ser (l.map (·.1))), { r with off := r.off + 112 * l.length })
  | [], st, ser, r, tail, _, _, _, _, _, hr => by
    simp only [List.map_nil, registerAll, Option.some.injEq] at hr
    subst hr
    simp [readAttrs, addAttrs, pure_def]
  | (⟨p, ids⟩, s) :: l, st, ser, r, tail, hr, hc, hok, hsec, hd, hreg => by
    obtain ⟨h1, h5⟩ := hok _ (List.mem_cons_self ..)
    obtain ⟨k1, k2, t, k3⟩ := hsec _ (List.mem_cons_self ..)
    simp only at h1 h5 k1 k2 k3
    have hdes : deserializeFileAttr ⟨p, ids⟩ = ⟨attrOf p, ids⟩ := by
      unfold deserializeFileAttr; simp only [deserialize_eq h1]
    rw [List.map_cons] at hreg
    simp only [hdes] at hreg
    unfold registerAll at hreg
    rw [List.flatMap_cons, List.append_assoc] at hd
    have hl112 : (Meta.image false (attrFlds (attrOf p) ++ [u64F s.1, u64F s.2])).length = 112 := by
      rw [Meta.image_append, List.length_append, attr_image_length, Meta.image_cons, Meta.image_one, List.length_append, u64_length, u64_length]
    obtain ⟨ho, hd'⟩ := ok_advance hr hd
    simp only [hl112] at ho hd'
    cases hcr : createReader st.ser ⟨attrOf p, ids⟩ false with
    | mk b s1 =>
      rw [hcr] at hreg
      cases b
      · cases hreg
      · simp only at hreg
        have h := attr_step hr hc h1 h5 hd k1 k2 k3 hcr
        have ih := attrs_loop l (st := addAttrs st s1 [⟨p, ids⟩]) (ser := ser) (r := { r with off := r.off + 112 }) (tail := tail) ho hc
          (fun y hy => hok y (List.mem_cons_of_mem _ hy)) (fun y hy => hsec y (List.mem_cons_of_mem _ hy)) hd' hreg
        rw [List.length_cons, readAttrs, bind_of h, ih]
        congr 3
        · unfold addAttrs; simp
        · simp only; omega

/-! ## The header -/

theorem gets_check {o : Nat} {c : Bool} (h : c = true) : Gets false o 0 (check c) [] () := by
  rw [h]; exact Gets.pure ()

theorem gets_setCross {o : Nat} : Gets false o 0 (setCross false) [] () := by
  intro r tail _ hc _ _ _
  unfold setCross
  obtain ⟨_, _, _, c⟩ := r
  simp only at hc
  subst hc
  simp

theorem magic_image : Fld.image false (.raw [80, 69, 82, 70, 73, 76, 69, 50]) = (u64F magic).image false := by decide

/-- What a file can hold; `Complete` also says where the names of events are. -/
structure Storable (env : Serial.Env) (x : Recording) : Prop where
  info : Faithful env.md5 (stored x.info)
  attrs : ∀ f ∈ x.info.attrs, AttrOk f.attr ∧ ∀ id ∈ f.ids, id < 2 ^ 64
  places : ∀ f ∈ x.info.attrs, ∀ g ∈ x.info.attrs, idPlace f.attr.sampleType = idPlace g.attr.sampleType
  events : ∀ e ∈ x.events, EventOk env x.info e.1 e.2
  size : (fileImage x).length < 2 ^ 62

theorem with_lengths (x : Recording) (ty : Nat × Nat) : (headerWith ty x).length = 104 ∧ (x.info.attrs.flatMap idsImage).length = idsSize x.info ∧
    (attrsImage x).length = 112 * x.info.attrs.length ∧ attrsAt x = 104 + idsSize x.info ∧
    dataAt x = 104 + idsSize x.info + 112 * x.info.attrs.length ∧
    (fileWith ty x).length = dataAt x + (dataImage x).length +
      (metadataImage false (stored x.info) (dataAt x + (dataImage x).length)).length ∧ (fileWith ty x).length = (fileImage x).length := by
  obtain ⟨h1, h2, h3, h4, h5, h6⟩ := image_lengths x
  have h7 : (headerWith ty x).length = 104 := by
    unfold headerWith
    simp [Meta.image, u64F, Fld.image, Item.encode, encodeInt]
  have h8 : (fileWith ty x).length = dataAt x + (dataImage x).length +
      (metadataImage false (stored x.info) (dataAt x + (dataImage x).length)).length := by
    unfold fileWith
    simp only [List.length_append, h7, h2, h3]
    omega
  exact ⟨h7, h2, h3, h4, h5, h8, by rw [h8, h6]⟩

/-- The header of a file is read as it is. -/
theorem read_header {env : Serial.Env} {x : Recording} {ty : Nat × Nat} (h : Storable env x) {r : Reader} {tail : Serial.Bytes} (hr : r.Ok)
    (hc : r.cross = false) (hb : r.buf = fileWith ty x ++ tail) (ho : r.off = 0) (hty : ty.1 + ty.2 ≤ r.buf.length) :
    readHeader r = some (some ⟨104, 112, (attrsAt x, 112 * x.info.attrs.length), (dataAt x, (dataImage x).length),
      ty, x.info.mask⟩, { r with off := 104 }) := by
  obtain ⟨h1, h2, h3, h4, h5, h6, h7⟩ := with_lengths x ty
  have hsz := h.size
  have hl : r.buf.length = (fileWith ty x).length + tail.length := by rw [hb, List.length_append]
  have hmask : x.info.mask < 2 ^ 64 := by
    apply Nat.lt_of_not_le
    intro hge
    obtain ⟨b, hb1, hb2⟩ := Nat.exists_ge_and_testBit_of_ge_two_pow hge
    have hk := h.info.mask b hb2
    have : ∀ b ∈ Meta.known, b < 64 := by decide
    have := this b hk
    omega
  have hd : r.buf.drop r.off = (u64F magic).image false ++ ((u64F 104).image false ++ ((u64F 112).image false ++
      (Meta.image false [u64F (attrsAt x), u64F (112 * x.info.attrs.length)] ++
      (Meta.image false [u64F (dataAt x), u64F (dataImage x).length] ++ (Meta.image false [u64F ty.1, u64F ty.2] ++
      (((u64F x.info.mask).image false ++ List.replicate 24 0) ++ (x.info.attrs.flatMap idsImage ++ attrsImage x ++ dataImage x ++
    metadataImage false (stored x.info) (dataAt x + (dataImage x).length) ++ tail))))))) := by
    rw [ho, List.drop_zero, hb, ← magic_image]
    unfold fileWith headerWith
    simp only [Meta.image_cons, Meta.image_nil, List.append_assoc, List.append_nil, Fld.image]
  generalize hT : (x.info.attrs.flatMap idsImage ++ attrsImage x ++ dataImage x ++
    metadataImage false (stored x.info) (dataAt x + (dataImage x).length) ++ tail) = T at hd
  have step1 := gets_u64 (cross := false) (o := r.off) (v := magic) (by decide) r _ hr hc rfl hd (Nat.zero_le _)
  obtain ⟨o1, d1⟩ := ok_advance hr hd
  rw [u64_length, ho] at step1 o1 d1
  have step2 := gets_u64 (cross := false) (o := 0 + 8) (v := 104) (by decide) { r with off := 0 + 8 } _ o1 hc rfl d1 (Nat.zero_le _)
  obtain ⟨o2, d2⟩ := ok_advance o1 d1
  rw [u64_length] at step2 o2 d2
  have step3 := gets_u64 (cross := false) (o := 0 + 8 + 8) (v := 112) (by decide) { r with off := 0 + 8 + 8 } _ o2 hc rfl d2 (Nat.zero_le _)
  obtain ⟨o3, d3⟩ := ok_advance o2 d2
  rw [u64_length] at step3 o3 d3
  have l16 : ∀ a b, (Meta.image false [u64F a, u64F b]).length = 16 := by
    intro a b; rw [Meta.image_cons, Meta.image_one, List.length_append, u64_length, u64_length]
  have step4 := gets_fileSection (r := { r with off := 0 + 8 + 8 + 8 }) o3 hc (by simp only; omega) d3 rfl
  obtain ⟨o4, d4⟩ := ok_advance o3 d3
  rw [l16] at o4 d4
  have step5 := gets_fileSection (r := { r with off := 0 + 8 + 8 + 8 + 16 }) o4 hc (by simp only; omega) d4 rfl
  obtain ⟨o5, d5⟩ := ok_advance o4 d4
  rw [l16] at o5 d5
  have step6 := gets_fileSection (r := { r with off := 0 + 8 + 8 + 8 + 16 + 16 }) o5 hc (by simp only; omega) d5 rfl
  obtain ⟨o6, d6⟩ := ok_advance o5 d5
  rw [l16] at o6 d6
  have l32 : ((u64F x.info.mask).image false ++ List.replicate 24 0).length = 32 := by
    rw [List.length_append, u64_length, List.length_replicate]
  have step7 := gets_data (cross := false) (o := 0 + 8 + 8 + 8 + 16 + 16 + 16) (n := 32) l32.symm (by omega)
    { r with off := 0 + 8 + 8 + 8 + 16 + 16 + 16 } _ o6 hc rfl d6 (Nat.zero_le _)
  rw [l32] at step7
  have htake : ((u64F x.info.mask).image false ++ List.replicate 24 0).take 8 = (u64F x.info.mask).image false := by
    rw [List.take_append_of_le_length (by rw [u64_length]; omega), List.take_of_length_le (by rw [u64_length]; omega)]
  have hle : leNat ((u64F x.info.mask).image false) = x.info.mask := by
    show leNat (toLE 8 x.info.mask) = _
    rw [leNat_toLE]
    omega
  unfold readHeader
  rw [bind_of (p := tell) rfl, bind_of (p := check (decide (r.off = 0))) (by rw [ho]; rfl), bind_of step1, if_neg (by decide)]
  rw [show (decide (magic ≠ magic)) = false by decide]
  have hset : setCross false { r with off := 0 + 8 } = some (some (), { r with off := 0 + 8 }) := by
    unfold setCross
    obtain ⟨_, _, _, c⟩ := r
    simp only at hc
    subst hc
    rfl
  rw [bind_of hset, bind_of step2, bind_of (p := tell) rfl, bind_of (p := check (decide (0 + 8 + 8 = 16))) rfl, if_neg (by decide)]
  unfold readRest
  rw [bind_of step3, bind_of step4, bind_of step5, bind_of step6, bind_of (p := tell) rfl,
    bind_of (p := check (decide (0 + 8 + 8 + 8 + 16 + 16 + 16 = 72))) rfl, bind_of step7, htake, hle]
  rfl

/-! ## The file -/

theorem accepted_of {env : Serial.Env} {x : Recording} (h : Storable env x) :
    ∃ ser, registerAll {} false (x.info.attrs.map deserializeFileAttr) = some ser := by
  refine (accepted_iff (x.info.attrs.map deserializeFileAttr) false).mpr ?_
  intro f hf g hg
  obtain ⟨f', hf', rfl⟩ := List.mem_map.mp hf
  obtain ⟨g', hg', rfl⟩ := List.mem_map.mp hg
  have hst : ∀ f : ProtoFileAttr, (deserializeFileAttr f).attr.sampleType = f.attr.sampleType := by
    intro f
    unfold deserializeFileAttr deserializeAttr
    simp only
    split <;> split <;> rfl
  rw [hst, hst]
  exact h.places f' hf' g' hg'

/-- The parts of a file. -/
theorem file_drops (x : Recording) (ty : Nat × Nat) (tail : Serial.Bytes) :
    (fileWith ty x ++ tail).drop 104 = x.info.attrs.flatMap idsImage ++ (attrsImage x ++ (dataImage x ++
      (metadataImage false (stored x.info) (dataAt x + (dataImage x).length) ++ tail))) ∧
    (fileWith ty x ++ tail).drop (attrsAt x) = attrsImage x ++ (dataImage x ++
      (metadataImage false (stored x.info) (dataAt x + (dataImage x).length) ++ tail)) ∧
    (fileWith ty x ++ tail).drop (dataAt x) = dataImage x ++
      (metadataImage false (stored x.info) (dataAt x + (dataImage x).length) ++ tail) ∧
    (fileWith ty x ++ tail).drop (dataAt x + (dataImage x).length) =
      metadataImage false (stored x.info) (dataAt x + (dataImage x).length) ++ tail := by
  obtain ⟨h1, h2, h3, h4, h5, h6, h7⟩ := with_lengths x ty
  have e : fileWith ty x ++ tail = headerWith ty x ++ (x.info.attrs.flatMap idsImage ++ (attrsImage x ++ (dataImage x ++
      (metadataImage false (stored x.info) (dataAt x + (dataImage x).length) ++ tail)))) := by
    unfold fileWith; simp only [List.append_assoc]
  have k1 : (fileWith ty x ++ tail).drop 104 = x.info.attrs.flatMap idsImage ++ (attrsImage x ++ (dataImage x ++
      (metadataImage false (stored x.info) (dataAt x + (dataImage x).length) ++ tail))) := by
    rw [e, ← h1, List.drop_left]
  have k2 : (fileWith ty x ++ tail).drop (attrsAt x) = attrsImage x ++ (dataImage x ++
      (metadataImage false (stored x.info) (dataAt x + (dataImage x).length) ++ tail)) := by
    rw [show attrsAt x = 104 + (x.info.attrs.flatMap idsImage).length from rfl, ← List.drop_drop, k1, List.drop_left]
  have k3 : (fileWith ty x ++ tail).drop (dataAt x) = dataImage x ++
      (metadataImage false (stored x.info) (dataAt x + (dataImage x).length) ++ tail) := by
    have : (fileWith ty x ++ tail).drop (attrsAt x + (attrsImage x).length) = dataImage x ++
        (metadataImage false (stored x.info) (dataAt x + (dataImage x).length) ++ tail) := by rw [← List.drop_drop, k2, List.drop_left]
    rwa [show attrsAt x + (attrsImage x).length = dataAt x by rw [h3]; rfl] at this
  refine ⟨k1, k2, k3, ?_⟩
  rw [← List.drop_drop, k3, List.drop_left]

/-- Attributes are read from the sections of the file. -/
theorem read_attrs {env : Serial.Env} {x : Recording} {ty : Nat × Nat} (h : Storable env x) {st : Meta.St} {ser : Ser} (hst : st.ser = {})
    (hs : registerAll {} false (x.info.attrs.map deserializeFileAttr) = some ser) {r : Reader} {tail : Serial.Bytes} (hr : r.Ok)
    (hc : r.cross = false) (hb : r.buf = fileWith ty x ++ tail) :
    ∃ o ≤ r.buf.length, readAttrsSection ⟨104, 112, (attrsAt x, 112 * x.info.attrs.length), (dataAt x, (dataImage x).length), ty, x.info.mask⟩ st r =
      some (some (addAttrs st ser x.info.attrs), { r with off := o }) := by
  obtain ⟨h1, h2, h3, h4, h5, h6, h7⟩ := with_lengths x ty
  obtain ⟨k1, k2, -, -⟩ := file_drops x ty tail
  rw [← hb] at k1 k2
  have hl : r.buf.length = (fileWith ty x).length + tail.length := by rw [hb, List.length_append]
  obtain ⟨hs1, hs2, -, -⟩ := seek_drop (r := r) hr (pos := attrsAt x) k2 (by omega)
  have hzl : (sectionsFrom 104 (x.info.attrs.map idsImage)).length = x.info.attrs.length := by
    rw [sections_length, List.length_map]
  have hz1 : (x.info.attrs.zip (sectionsFrom 104 (x.info.attrs.map idsImage))).map (·.1) = x.info.attrs := by
    rw [List.map_fst_zip (by omega)]
  have hat := sections_at (buf := r.buf) x.info.attrs (pos := 104) (t := attrsImage x ++ (dataImage x ++
      (metadataImage false (stored x.info) (dataAt x + (dataImage x).length) ++ tail))) (by rw [k1, List.flatMap_def]) (by omega)
  have hloop := attrs_loop (x.info.attrs.zip (sectionsFrom 104 (x.info.attrs.map idsImage))) (st := st) (ser := ser)
    (r := { r with off := attrsAt x }) (tail := (dataImage x ++
      (metadataImage false (stored x.info) (dataAt x + (dataImage x).length) ++ tail))) hs2 hc
    (fun y hy => h.attrs _ (hat y hy).1) (fun y hy => (hat y hy).2) k2 (by
      rw [hst]
      have : (x.info.attrs.zip (sectionsFrom 104 (x.info.attrs.map idsImage))).map (fun y => deserializeFileAttr y.1) =
          x.info.attrs.map deserializeFileAttr := by
        conv => rhs; rw [← hz1, List.map_map]
        rfl
      rw [this, hs])
  rw [hz1, List.length_zip, hzl, Nat.min_self] at hloop
  refine ⟨attrsAt x + 112 * x.info.attrs.length, by omega, ?_⟩
  unfold readAttrsSection
  simp only
  rw [if_neg (by decide), Nat.mul_div_cancel_left _ (by decide : 0 < 112)]
  show (do let _ ← seek (attrsAt x); readAttrs x.info.attrs.length st : P Meta.St) r = _
  rw [bind_of hs1, hloop]

/-- The attributes that are read before the feature sections. -/
def readFirst (h : FileHeader) (st : Meta.St) : P Meta.St := if st.info.mask.testBit 12 then pure st else readOld h st

theorem readFileData_eq {cfg : Cfg} {h : FileHeader} {st : Data.St} {r : Reader}
    (h1 : ¬ (addSz h.attrs.1 h.attrs.2 > r.size ∨ addSz h.data.1 h.data.2 > r.size ∨ addSz h.types.1 h.types.2 > r.size)) :
    readFileData cfg h st r = (readFirst h st.base >>= fun b => readMetadata cfg.env.md5 b (addSz h.data.1 h.data.2) >>= fun b =>
      readDataSection cfg { st with base := b } h.data.1 h.data.2 >>= fun st =>
      (pure (if st.base.info.eventTypes ≠ [] then setBit st 12 else st) : P Data.St)) r := by
  unfold readFileData readFirst
  rw [bind_of (p := dataSize) rfl, if_neg h1]
  split <;> rfl

/-- The bytes of a recording, with a list of event types or without it, are read as the recording. -/
theorem read_file {cfg : Cfg} {x : Recording} {ty : Nat × Nat} (h : Storable cfg.env x) (hskip : cfg.skip = []) {tail : Serial.Bytes}
    (hb : (fileWith ty x ++ tail).length < 2 ^ 63) (hty : ty.1 + ty.2 ≤ (fileWith ty x ++ tail).length)
    (hold : x.info.mask.testBit 12 = false → ∀ (st : Meta.St) (r : Reader), r.Ok → r.cross = false → r.buf = fileWith ty x ++ tail →
      st.info.attrs = x.info.attrs → st.info.eventTypes = [] → ∃ o ≤ r.buf.length,
        readTypesSection ⟨104, 112, (attrsAt x, 112 * x.info.attrs.length), (dataAt x, (dataImage x).length), ty, x.info.mask⟩ st r =
          some (some { st with info := { st.info with eventTypes := x.info.eventTypes } }, { r with off := o })) :
    ∃ st, readBytes cfg (fileWith ty x ++ tail) = some (some st) ∧ st.events = x.messages ∧
      st.base.info = (if x.info.eventTypes ≠ [] then { loaded cfg.env.md5 x with mask := x.info.mask ||| 2 ^ 12 } else loaded cfg.env.md5 x) ∧
      st.reported = (if cfg.callback then samplesOf x.messages else []) ∧
      registerAll {} false (x.info.attrs.map deserializeFileAttr) = some st.base.ser := by
  obtain ⟨h1, h2, h3, h4, h5, h6, h7⟩ := with_lengths x ty
  obtain ⟨k1, k2, k3, k4⟩ := file_drops x ty tail
  obtain ⟨ser, hs⟩ := accepted_of h
  have hl : (fileWith ty x ++ tail).length = (fileWith ty x).length + tail.length := List.length_append
  unfold readBytes readFromData
  generalize hR : Reader.new (fileWith ty x ++ tail) false = r
  have hrb : r.buf = fileWith ty x ++ tail := by rw [← hR]; rfl
  have hrc : r.cross = false := by rw [← hR]; rfl
  have hro : r.off = 0 := by rw [← hR]; rfl
  have hrs : r.size = (fileWith ty x ++ tail).length := by rw [← hR]; rfl
  have hr : r.Ok := ⟨by rw [hrs, hrb], by omega, by rw [hrb]; exact hb⟩
  have hhead := read_header h hr hrc hrb hro (by rw [hrb]; exact hty)
  rw [bind_of (p := dataSize) rfl, if_neg (by omega), bind_of hhead, if_pos (by rfl)]
  have ha1 : addSz (attrsAt x) (112 * x.info.attrs.length) = dataAt x := by unfold addSz; omega
  have ha2 : addSz (dataAt x) (dataImage x).length = dataAt x + (dataImage x).length := by unfold addSz; omega
  have ha3 : addSz ty.1 ty.2 = ty.1 + ty.2 := by unfold addSz; omega
  rw [readFileData_eq (by simp only; rw [ha1, ha2, ha3, hrs]; omega)]
  simp only
  rw [ha2]
  have hr4 : Reader.Ok { r with off := 104 } := ⟨hr.1, by simp only; omega, hr.2.2⟩
  -- attributes of the sections of the file
  obtain ⟨b, o1, hb1, hbi, hbs, hbo⟩ : ∃ (b : Meta.St) (o : Nat), readFirst
      ⟨104, 112, (attrsAt x, 112 * x.info.attrs.length), (dataAt x, (dataImage x).length), ty, x.info.mask⟩
        ({ info := { mask := x.info.mask } } : Meta.St) { r with off := 104 } = some (some b, { r with off := o }) ∧
      b.info = (stored x.info).before [] ∧ b.ser = (if x.info.mask.testBit 12 then {} else ser) ∧ o ≤ r.buf.length := by
    unfold readFirst
    by_cases h12 : x.info.mask.testBit 12 = true
    · rw [if_pos h12]
      refine ⟨_, 104, rfl, ?_, ?_, by rw [hrb]; omega⟩
      · unfold Info.before
        have : (stored x.info).mask.testBit 12 = true := h12
        simp only [this, if_true]
        rfl
      · rw [if_pos h12]
    · rw [if_neg h12]
      have h12' : x.info.mask.testBit 12 = false := by
        cases hh : x.info.mask.testBit 12
        · rfl
        · exact absurd hh h12
      obtain ⟨o, hoo, ho⟩ := read_attrs h (st := { info := { mask := x.info.mask } }) rfl hs hr4 hrc hrb
      obtain ⟨o', hoo', ho'⟩ := hold h12' (addAttrs { info := { mask := x.info.mask } } ser x.info.attrs) { r with off := o }
        ⟨hr.1, by have := hr.1; simp only at hoo ⊢; omega, hr.2.2⟩ hrc hrb (by simp [addAttrs]) rfl
      refine ⟨_, o', by unfold readOld; rw [bind_of ho, ho'], ?_, ?_, hoo'⟩
      · unfold Info.before addAttrs
        have : (stored x.info).mask.testBit 12 = false := h12'
        simp only [this]
        simp only [stored, List.nil_append]
        rfl
      · rw [if_neg h12]; rfl
  rw [bind_of hb1]
  -- feature sections
  obtain ⟨st1, o2, hm1, hm2, hm3⟩ := read_metadata_from cfg.env.md5 false (stored x.info) { r with off := o1 }
    (dataAt x + (dataImage x).length) [] tail b h.info ⟨hr.1, by rw [hrb] at hbo; simp only; omega, hr.2.2⟩ hrc (by rw [hrb]; omega)
    (by rw [hrb]; exact k4) (fun h12 => ⟨rfl, by rw [hbs, if_pos (show x.info.mask.testBit 12 = true from h12)]⟩)
  rw [← hbi] at hm1
  have hser : registerAll {} false (x.info.attrs.map deserializeFileAttr) = some st1.ser := by
    by_cases h12 : x.info.mask.testBit 12 = true
    · rw [if_pos (show (stored x.info).mask.testBit 12 = true from h12)] at hm3
      exact hm3
    · rw [if_neg (show ¬ (stored x.info).mask.testBit 12 = true from h12), hbs, if_neg h12] at hm3
      rw [hm3, hs]
  rw [bind_of hm1]
  -- records
  have hsk : seek (dataAt x) { r with off := o2 } = some (some (), { r with off := dataAt x }) := by
    apply seek_of
    show dataAt x ≤ r.size
    rw [hrs]; omega
  have hdata : readDataSection cfg { base := st1 } (dataAt x) (dataImage x).length { r with off := o2 } =
      some (some (absorbAll cfg { base := st1 } x.messages), { r with off := dataAt x + (dataImage x).length }) := by
    unfold readDataSection
    rw [bind_of hsk]
    exact gets_records hskip x.events (st := { base := st1 }) h.events hser (by show st1.info.attrs = _; rw [hm2]; rfl)
      (show (dataImage x).length < _ by omega) (show (dataImage x).length < _ by simp only; rw [hrs]; omega)
      { r with off := dataAt x } _ ⟨hr.1, by simp only; omega, hr.2.2⟩ hrc rfl (by show r.buf.drop (dataAt x) = _; rw [hrb]; exact k3) (Nat.zero_le _)
  have hend : (absorbAll cfg { base := st1 } x.messages).base.info = loaded cfg.env.md5 x ∧
      (absorbAll cfg { base := st1 } x.messages).base.ser = st1.ser := by
    rw [absorbAll_eq]
    refine ⟨?_, rfl⟩
    simp only [hm2]
    rfl
  have hty' : (absorbAll cfg { base := st1 } x.messages).base.info.eventTypes = x.info.eventTypes := by rw [hend.1]; rfl
  rw [bind_of hdata, hty']
  by_cases hne : x.info.eventTypes ≠ []
  · rw [if_pos hne, if_pos hne]
    refine ⟨setBit (absorbAll cfg { base := st1 } x.messages) 12, rfl, ?_, ?_, ?_, ?_⟩
    · show (absorbAll cfg { base := st1 } x.messages).events = _
      rw [absorbAll_eq]; rfl
    · show ({ (absorbAll cfg { base := st1 } x.messages).base.info with
        mask := (absorbAll cfg { base := st1 } x.messages).base.info.mask ||| 2 ^ 12 } : Info) = _
      rw [hend.1]
      rfl
    · show (absorbAll cfg { base := st1 } x.messages).reported = _
      rw [absorbAll_eq]; simp
    · show _ = some (absorbAll cfg { base := st1 } x.messages).base.ser
      rw [hend.2]; exact hser
  · rw [if_neg hne, if_neg hne]
    refine ⟨absorbAll cfg { base := st1 } x.messages, rfl, ?_, hend.1, ?_, ?_⟩
    · rw [absorbAll_eq]; rfl
    · rw [absorbAll_eq]; simp
    · rw [hend.2]; exact hser

theorem Complete.storable {env : Serial.Env} {x : Recording} (h : Complete env x) : Storable env x :=
  ⟨h.info, h.attrs, h.places, h.events, h.size⟩

theorem or_bit {m b : Nat} (h : m.testBit b = true) : m ||| 2 ^ b = m := by
  apply Nat.eq_of_testBit_eq
  intro j
  rw [Nat.testBit_or, Nat.testBit_two_pow]
  by_cases hj : b = j
  · subst hj; rw [h]; rfl
  · simp [hj]

/-- The bytes of a recording, whatever follows them, are read as the recording. -/
theorem read_image {cfg : Cfg} {x : Recording} (h : Complete cfg.env x) (hskip : cfg.skip = []) {tail : Serial.Bytes}
    (hb : (fileImage x ++ tail).length < 2 ^ 63) :
    ∃ st, readBytes cfg (fileImage x ++ tail) = some (some st) ∧ st.events = x.messages ∧ st.base.info = loaded cfg.env.md5 x ∧
      st.reported = (if cfg.callback then samplesOf x.messages else []) ∧
      registerAll {} false (x.info.attrs.map deserializeFileAttr) = some st.base.ser := by
  obtain ⟨-, -, -, -, -, h6⟩ := image_lengths x
  obtain ⟨st, k1, k2, k3, k4⟩ := read_file (ty := (dataAt x, 0)) h.storable hskip hb
    (by rw [show fileWith (dataAt x, 0) x = fileImage x from rfl, List.length_append]; simp only; omega)
    (fun h12 st r hr _ _ _ he => by
      refine ⟨r.off, by have := hr.1; have := hr.2.1; omega, ?_⟩
      unfold readTypesSection
      simp only
      rw [if_pos (by decide), h.names h12, ← he]
      rfl)
  refine ⟨st, k1, k2, ?_, k4⟩
  rw [k3]
  split
  · rename_i hne
    rw [or_bit (by
      cases hh : x.info.mask.testBit 12
      · exact absurd (h.names hh) hne
      · rfl)]
    rfl
  · rfl

end Verif.File
