import Verif.Whole.Props4
import Verif.Names.Props

/-! # Build IDs of the mappings in profiles -/

namespace Verif.Whole
open Verif.Serial (Msg Body)
open Verif.Names (IsTable HexTexts PlainNames)

/-! ## Specification -/

/-- The text of a build ID, with 40 digits. -/
def digits40 (s : Bytes) : Bytes := s.take 40 ++ List.replicate (40 - s.length) 48

/-- The build ID of a file: the one given by the caller, or else the last one recorded for it. -/
def entryId (ids : List (Bytes × Bytes)) (recs : List Names.BuildId) (n : Bytes) : Option Bytes :=
  match ids.find? (fun p => p.1 = n) with
  | some p => some (digits40 p.2)
  | none => ((recs.filter (fun r => r.filename = n)).getLast?).map (fun r => digits40 (Util.rawDataToHexString r.hash))

/-- The build ID of the file of a mapping. The two names that the kernel has in mappings stand for `[kernel.kallsyms]`. -/
def fileId (ids : List (Bytes × Bytes)) (recs : List Names.BuildId) (n : Bytes) : Option Bytes :=
  if n = ascii "[kernel.kallsyms]_text" ∨ n = ascii "[kernel.kallsyms]_stext" then
    (entryId ids recs (ascii "[kernel.kallsyms]")).or (entryId ids recs n)
  else entryId ids recs n

/-- The build ID of the kernel: the first one recorded in kernel mode for something that is no module. -/
def kernelEntry (recs : List Names.BuildId) : Bytes :=
  match recs.find? (fun r => decide (r.hash ≠ [] ∧ r.misc % 8 = 1 ∧ ((ascii ".ko") <:+ r.filename →
      ∃ n ∈ [ascii "[kernel.kallsyms]", ascii "[guest.kernel.kallsyms", ascii "[vdso]", ascii "[vsyscall]"], n <+: r.filename))) with
  | some r => Util.rawDataToHexString r.hash
  | none => []

/-- The mapping of the profile shows the build ID of a mapping of the recording: that of its record; or else that of its file,
which may be cut or filled with zeros to 40 digits; or else that of the kernel, if it is one of the kernel and the caller gives no build IDs, or else, unless it is one of the kernel, none. Files whose name consists of hexadecimal digits only are left out,
and those of the kernel with a build ID of zeros. -/
structure Identified (ids : List (Bytes × Bytes)) (recs : List Names.BuildId) (p : Profile.Profile) (m : Profile.Mapping) (b : Serial.MMap) : Prop where
  own : ∀ x, b.buildId = some x → x ≠ [] → p.stringTable[m.buildId.toNat]? = some (x.takeWhile (· ≠ 0))
  listed : b.buildId.getD [] = [] → (∃ c ∈ b.filename, c ∉ ascii "0123456789abcdef") → ∀ x, fileId ids recs b.filename = some x →
    (x ≠ List.replicate 40 48 ∨ ¬ ascii "[kernel.kallsyms]" <+: b.filename) →
    ∃ s, p.stringTable[m.buildId.toNat]? = some s ∧ digits40 s = x
  missing : b.buildId.getD [] = [] → (∃ c ∈ b.filename, c ∉ ascii "0123456789abcdef") → fileId ids recs b.filename = none →
    ¬ ascii "[kernel.kallsyms]" <+: b.filename → p.stringTable[m.buildId.toNat]? = some []
  kernel : b.buildId.getD [] = [] → fileId ids recs b.filename = none → ascii "[kernel.kallsyms]" <+: b.filename → ids = [] →
    p.stringTable[m.buildId.toNat]? = some (kernelEntry recs)

/-! ## Entries -/

theorem entryId_eq (ids : List (Bytes × Bytes)) (recs : List Names.BuildId) (n : Bytes) :
    entryId ids recs n = ((Names.find ids n).map digits40).or (Names.reported recs n) := by
  unfold entryId Names.find Names.reported
  rw [show (fun p : Bytes × Bytes => p.1 == n) = (fun p => decide (p.1 = n)) from funext fun p => Bool.beq_eq_decide_eq _ _]
  cases ids.find? (fun p => decide (p.1 = n)) with
  | some p => rfl
  | none =>
    simp only [Option.map_none, Option.none_or]
    cases (recs.filter (fun r => decide (r.filename = n))).getLast? with
    | none => rfl
    | some r =>
      simp only [Option.map_some, Option.some.injEq]
      exact Names.perfize_hex r.hash

theorem injected_reported (md5 : Bytes → Nat) {ids : List (Bytes × Bytes)} (ht : IsTable ids) (hx : HexTexts ids) (hn : PlainNames ids)
    (d : Names.Data) (n : Bytes) : Names.reported (Names.injectBuildIDs md5 ids d).1.buildIds n = entryId ids d.buildIds n := by
  rw [entryId_eq, ← Names.table_spec]
  cases hf : Names.find ids n with
  | some s =>
    rw [(Names.inject_reported md5 ht hx hn d).2 n s ((Names.find_iff ht).1 hf)]
    rfl
  | none =>
    rw [Names.inject_others md5 ht hx hn d n (Names.find_none_iff.1 hf), Names.table_spec]
    rfl

/-- What the converter finds for a name. -/
theorem with_reported (md5 : Bytes → Nat) {ids : List (Bytes × Bytes)} (ht : IsTable ids) (hx : HexTexts ids) (hn : PlainNames ids)
    (i : Meta.Info) (l : List Msg) (n : Bytes) : Names.reported (withBuildIds md5 ids i l).buildIds n = fileId ids i.buildIds n := by
  have key := injected_reported md5 ht hx hn (namesData i l)
  generalize hd : (Names.injectBuildIDs md5 ids (namesData i l)).1 = d at key
  have hb : (withBuildIds md5 ids i l).buildIds = (Names.alternateNames kernelNames d).buildIds := by rw [← hd]; rfl
  rw [hb, ← Names.table_spec]
  have key : ∀ n, Names.reported d.buildIds n = entryId ids i.buildIds n := key
  have mem : ∀ f m, (f, m) ∈ kernelNames ↔ f = ascii "[kernel.kallsyms]" ∧ (m = ascii "[kernel.kallsyms]_text" ∨ m = ascii "[kernel.kallsyms]_stext") := by
    intro f m
    unfold kernelNames
    simp only [List.mem_cons, List.not_mem_nil, or_false, Prod.mk.injEq]
    constructor
    · rintro (⟨h1, h2⟩ | ⟨h1, h2⟩)
      · exact ⟨h1, .inl h2⟩
      · exact ⟨h1, .inr h2⟩
    · rintro ⟨h1, h2 | h2⟩
      · exact .inl ⟨h1, h2⟩
      · exact .inr ⟨h1, h2⟩
  unfold fileId
  by_cases h : n = ascii "[kernel.kallsyms]_text" ∨ n = ascii "[kernel.kallsyms]_stext"
  · rw [if_pos h, ← key, ← key]
    by_cases hk : ∃ b ∈ d.buildIds, b.filename = ascii "[kernel.kallsyms]"
    · rw [Names.alternates_reported kernelNames d (ascii "[kernel.kallsyms]") n ((mem _ _).2 ⟨rfl, h⟩) (fun f' hf' => ((mem _ _).1 hf').1) hk,
        Names.table_spec]
      obtain ⟨b, hb, hbn⟩ := hk
      cases hr : Names.reported d.buildIds (ascii "[kernel.kallsyms]") with
      | some x => rfl
      | none =>
        exfalso
        unfold Names.reported at hr
        rw [Option.map_eq_none_iff, List.getLast?_eq_none_iff, List.filter_eq_nil_iff] at hr
        exact hr b hb (by simpa using hbn)
    · have hk' : ∀ b ∈ d.buildIds, b.filename ≠ ascii "[kernel.kallsyms]" := fun b hb hbn => hk ⟨b, hb, hbn⟩
      rw [Names.reported_none hk', Option.none_or, Names.table_spec]
      unfold Names.alternateNames
      simp only
      rw [Names.reported_append, Names.reported_none]
      · rfl
      · intro b' hb'
        obtain ⟨b, hb, hb'⟩ := List.mem_flatMap.1 hb'
        obtain ⟨p, hp, -⟩ := List.mem_map.1 hb'
        obtain ⟨hp1, hp2⟩ := List.mem_filter.1 hp
        exact absurd ((by simpa using hp2 : p.1 = b.filename).symm.trans ((mem p.1 p.2).1 hp1).1) (hk' b hb)
  · rw [if_neg h, ← key, Names.alternates_others kernelNames d n (fun f hf => h ((mem _ _).1 hf).2), Names.table_spec]

/-! ## Mappings -/

/-- The last entry of a name. -/
theorem last_reported {bs : List Names.BuildId} {n : Bytes} (hn : ∃ c ∈ n, c ∉ ascii "0123456789abcdef") :
    (Normalizer.lastNamed (bs.map (fun b => { hash := b.hash, filename := b.filename, md5 := b.md5, injected := b.injected, misc := b.misc })) n).map
      (fun r => digits40 (Normalizer.hexOf r.hash)) = Names.reported bs n := by
  have hne : n ≠ [] := by
    rintro rfl
    obtain ⟨c, hc, -⟩ := hn
    cases hc
  unfold Normalizer.lastNamed
  rw [← List.getLast?_filter, List.filter_map, List.getLast?_map, Option.map_map]
  unfold Names.reported
  have hp : ∀ b : Names.BuildId, (((fun r : Normalizer.BuildIdRec => Normalizer.nameOrMd5 r.filename r.md5 == n) ∘
      fun b : Names.BuildId => { hash := b.hash, filename := b.filename, md5 := b.md5, injected := b.injected, misc := b.misc }) b) =
      decide (b.filename = n) := by
    intro b
    simp only [Function.comp]
    rw [Bool.beq_eq_decide_eq, decide_eq_decide]
    unfold Normalizer.nameOrMd5
    split
    · rename_i he
      constructor
      · intro h
        obtain ⟨c, hc, hc'⟩ := hn
        rw [← h] at hc
        exact absurd (hexDigits_plain _ _ c hc) hc'
      · intro h
        rw [he] at h
        exact absurd h.symm hne
    · rfl
  rw [List.filter_congr (fun b _ => hp b)]
  cases (bs.filter (fun b => decide (b.filename = n))).getLast? with
  | none => rfl
  | some b =>
    simp only [Option.map_some, Function.comp, Option.some.injEq]
    have : Normalizer.hexOf b.hash = Util.rawDataToHexString b.hash := by
      generalize b.hash = h
      induction h with
      | nil => rfl
      | cons x t ih =>
        unfold Normalizer.hexOf at ih ⊢
        rw [List.flatMap_cons, ih]
        rfl
    rw [this]
    exact Names.perfize_hex b.hash

theorem takeWhile_plain : ∀ {l : Bytes}, (0 : UInt8) ∉ l → l.takeWhile (· ≠ 0) = l
  | [], _ => rfl
  | c :: l, h => by
    have hc : c ≠ 0 := by rintro rfl; exact h List.mem_cons_self
    rw [List.takeWhile_cons_of_pos (by simpa using hc), takeWhile_plain (fun h' => h (List.mem_cons_of_mem _ h'))]

theorem hexOf_raw (h : Bytes) : Normalizer.hexOf h = Util.rawDataToHexString h := by
  induction h with
  | nil => rfl
  | cons x t ih =>
    unfold Normalizer.hexOf at ih ⊢
    rw [List.flatMap_cons, ih]
    rfl

/-- Whether an entry can tell the build ID of the kernel. -/
def kernelish (r : Normalizer.BuildIdRec) : Bool :=
  decide (r.hash ≠ [] ∧ r.misc % 8 = 1) && (Normalizer.isKernelNonModuleName (Normalizer.nameOrMd5 r.filename r.md5) ||
    !(ascii ".ko").isSuffixOf (Normalizer.nameOrMd5 r.filename r.md5))

def entryRec (b : Names.BuildId) : Normalizer.BuildIdRec := { hash := b.hash, filename := b.filename, md5 := b.md5, injected := b.injected, misc := b.misc }

theorem kernelish_iff (b : Names.BuildId) : kernelish (entryRec b) = decide (b.hash ≠ [] ∧ b.misc % 8 = 1 ∧ ((ascii ".ko") <:+ b.filename →
      ∃ n ∈ [ascii "[kernel.kallsyms]", ascii "[guest.kernel.kallsyms", ascii "[vdso]", ascii "[vsyscall]"], n <+: b.filename)) := by
  rw [Bool.eq_iff_iff, decide_eq_true_eq]
  unfold kernelish entryRec Normalizer.isKernelNonModuleName
  simp only [Bool.and_eq_true, decide_eq_true_eq, Bool.or_eq_true, List.any_eq_true, List.isPrefixOf_iff_prefix, Bool.not_eq_true', and_assoc]
  refine and_congr_right fun _ => and_congr_right fun _ => ?_
  by_cases he : b.filename = []
  · have h1 : ¬ (ascii ".ko") <:+ b.filename := by
      rw [he]
      intro h
      have := h.length_le
      revert this
      decide
    have h2 : (ascii ".ko").isSuffixOf (Normalizer.nameOrMd5 b.filename b.md5) = false := by
      rw [Bool.eq_false_iff]
      intro h
      obtain ⟨t, ht⟩ := List.isSuffixOf_iff_suffix.1 h
      have hm : (46 : UInt8) ∈ Normalizer.nameOrMd5 b.filename b.md5 := by
        rw [← ht, List.mem_append]
        exact .inr (by decide)
      unfold Normalizer.nameOrMd5 at hm
      rw [if_pos he] at hm
      exact absurd (hexDigits_plain _ _ _ hm) (by decide)
    exact ⟨fun _ h => absurd h h1, fun _ => .inr h2⟩
  · have hn : Normalizer.nameOrMd5 b.filename b.md5 = b.filename := by unfold Normalizer.nameOrMd5; rw [if_neg he]
    rw [hn]
    constructor
    · rintro (h | h) hs
      · exact h
      · rw [Bool.eq_false_iff] at h
        exact absurd (List.isSuffixOf_iff_suffix.2 hs) h
    · intro h
      by_cases hs : (ascii ".ko") <:+ b.filename
      · exact .inl (h hs)
      · right
        rw [Bool.eq_false_iff]
        exact fun h => hs (List.isSuffixOf_iff_suffix.1 h)

/-- The names that stand for the kernel do not change its build ID. -/
theorem kernel_entry (md5 : Bytes → Nat) (i : Meta.Info) (l : List Msg) :
    Normalizer.kernelId ((withBuildIds md5 [] i l).buildIds.map entryRec) = kernelEntry i.buildIds := by
  have hu : ∀ bs : List Names.BuildId, Names.updateEntries [] bs = (bs, [], true) := by
    intro bs
    induction bs with
    | nil => rfl
    | cons b t ih =>
      rw [Names.updateEntries, show Names.find ([] : List (Bytes × Bytes)) b.filename = none from rfl]
      simp only [ih]
  have hb : (withBuildIds md5 [] i l).buildIds = i.buildIds ++ i.buildIds.flatMap (fun b =>
      (kernelNames.filter (fun p => p.1 == b.filename)).map (fun p => { b with filename := p.2 })) := by
    unfold withBuildIds Names.injectBuildIDs Names.alternateNames namesData
    simp only [hu, Names.addEntries, List.append_nil, Bool.not_true, Bool.false_eq_true, if_false]
  rw [hb]
  unfold Normalizer.kernelId kernelEntry
  have hk : (fun r : Normalizer.BuildIdRec => decide (r.hash ≠ [] ∧ r.misc % 8 = 1) && (Normalizer.isKernelNonModuleName (Normalizer.nameOrMd5 r.filename r.md5) ||
    !(ascii ".ko").isSuffixOf (Normalizer.nameOrMd5 r.filename r.md5))) = kernelish := rfl
  rw [hk, List.find?_map, show (kernelish ∘ entryRec) = _ from funext kernelish_iff, List.find?_append]
  generalize hq : (fun r : Names.BuildId => decide (r.hash ≠ [] ∧ r.misc % 8 = 1 ∧ ((ascii ".ko") <:+ r.filename →
      ∃ n ∈ [ascii "[kernel.kallsyms]", ascii "[guest.kernel.kallsyms", ascii "[vdso]", ascii "[vsyscall]"], n <+: r.filename))) = q
  cases hf : i.buildIds.find? q with
  | some r => exact hexOf_raw r.hash
  | none =>
    rw [Option.none_or]
    have : List.find? q (i.buildIds.flatMap (fun b => (kernelNames.filter (fun p => p.1 == b.filename)).map (fun p => { b with filename := p.2 }))) = none := by
      rw [List.find?_eq_none]
      intro b' hb' ht
      obtain ⟨b, hb, hb'⟩ := List.mem_flatMap.1 hb'
      obtain ⟨p, hp, rfl⟩ := List.mem_map.1 hb'
      obtain ⟨hp1, hp2⟩ := List.mem_filter.1 hp
      have hp2 : p.1 = b.filename := by simpa using hp2
      have hp3 : p.1 = ascii "[kernel.kallsyms]" := by
        unfold kernelNames at hp1
        simp only [List.mem_cons, List.not_mem_nil, or_false] at hp1
        rcases hp1 with rfl | rfl <;> rfl
      apply List.find?_eq_none.1 hf b hb
      rw [← hq] at ht ⊢
      simp only [decide_eq_true_eq] at ht ⊢
      exact ⟨ht.1, ht.2.1, fun _ => ⟨ascii "[kernel.kallsyms]", List.mem_cons_self, by rw [← hp2, hp3]; exact List.prefix_refl _⟩⟩
    rw [this]
    rfl

theorem identified {M : Machine} {ids : List (Bytes × Bytes)} (ht : IsTable ids) (hx : HexTexts ids) (hn : PlainNames ids) {i : Meta.Info}
    {l r : List Msg} {cfg : Normalizer.Config} (hcfg : Normalizer.mkConfig (normInput M (withBuildIds M.env.md5 ids i l) r) = some cfg)
    {p : Profile.Profile} {m : Profile.Mapping} {b : Serial.MMap} (h : Shown cfg.ids p m b) : Identified ids i.buildIds p m b := by
  obtain ⟨-, o, x, y, ⟨r1, x0, x1, x2, x3, x4, x5, x6⟩, ⟨r2, y0, y1, y2, y3, y4, y5, y6⟩, hxy, htit, hd, ⟨m1, m2, m3, m4, m5⟩⟩ := h
  rw [hxy, x0] at y0
  cases y0
  have hids : cfg.ids = (normInput M (withBuildIds M.env.md5 ids i l) r).buildIds.foldl Normalizer.addBuildId {} := by
    unfold Normalizer.mkConfig at hcfg
    simp only [Option.bind_eq_bind] at hcfg
    obtain ⟨u, -, hcfg⟩ := Option.bind_eq_some_iff.1 hcfg
    cases hcfg
    rfl
  rw [← y5, x5] at m5
  have hg := hd.buildId
  unfold Normalizer.getBuildId at hg
  simp only at hg
  have hown : ∀ z, b.buildId = some z → z ≠ [] → p.stringTable[m.buildId.toNat]? = some (z.takeWhile (· ≠ 0)) := by
    intro z hz hz0
    rw [m5]
    rw [show (toEv b).buildId = b.buildId from rfl, hz] at hg
    simp only [Option.getD_some] at hg
    rw [if_pos hz0] at hg
    obtain ⟨q, -, hq⟩ := Option.map_eq_some_iff.1 hg
    rw [← hq]
  by_cases hne : b.filename = []
  · refine ⟨hown, fun _ hc => ?_, fun _ hc => ?_, fun _ _ hk => ?_⟩
    · obtain ⟨c, hc, -⟩ := hc
      rw [hne] at hc; cases hc
    · obtain ⟨c, hc, -⟩ := hc
      rw [hne] at hc; cases hc
    · rw [hne] at hk
      exact absurd hk.length_le (by decide)
  rw [show (toEv b).filename = b.filename from rfl, show (toEv b).md5 = b.filenameMd5 from rfl, show (toEv b).buildId = b.buildId from rfl,
    show Normalizer.nameOrMd5 b.filename b.filenameMd5 = b.filename by unfold Normalizer.nameOrMd5; rw [if_neg hne]] at hg
  have htab : (∃ c ∈ b.filename, c ∉ ascii "0123456789abcdef") → ((cfg.ids.byName b.filename).map (fun v => digits40 v.value)) = fileId ids i.buildIds b.filename := by
    intro hc
    have h1 := Normalizer.table_value (normInput M (withBuildIds M.env.md5 ids i l) r).buildIds b.filename
    rw [← hids] at h1
    have h2 := congrArg (fun o => o.map digits40) h1
    simp only [Option.map_map] at h2
    refine Eq.trans h2 ?_
    rw [← with_reported M.env.md5 ht hx hn i l]
    exact last_reported (bs := (withBuildIds M.env.md5 ids i l).buildIds) hc
  have hplain : ∀ v, cfg.ids.byName b.filename = some v → v.value.takeWhile (· ≠ 0) = v.value := by
    intro v hv
    have h1 := Normalizer.table_value (normInput M (withBuildIds M.env.md5 ids i l) r).buildIds b.filename
    rw [← hids, hv] at h1
    obtain ⟨q, -, hq⟩ := Option.map_eq_some_iff.1 h1.symm
    have hq : Normalizer.hexOf q.hash = v.value := hq
    rw [← hq]
    exact takeWhile_plain (Normalizer.hexOf_noNul q.hash)
  refine ⟨hown, fun ho hc z hz hk => ?_, fun ho hc hz hk => ?_, fun ho hz hk hnil => ?_⟩
  · rw [if_neg (fun h => h ho)] at hg
    have := htab hc
    rw [hz] at this
    obtain ⟨v, hv, hvz⟩ := Option.map_eq_some_iff.1 this
    rw [hv] at hg
    simp only [Option.getD_some] at hg
    refine ⟨_, m5, ?_⟩
    split at hg
    · cases hg
      rw [hplain _ hv]
      exact hvz
    · rename_i hv0
      have hv0 : v.value = [] := by simpa using hv0
      rw [hv0] at hvz
      split at hg
      · rename_i hp
        rcases hk with hk | hk
        · exact absurd (hvz.symm.trans (by decide)) hk
        · exact absurd (List.isPrefixOf_iff_prefix.1 hp) hk
      · rw [← Option.some.inj hg, ← hvz]
        rfl
  · rw [if_neg (fun h => h ho)] at hg
    have := htab hc
    rw [hz] at this
    have hv := Option.map_eq_none_iff.1 this
    rw [hv] at hg
    simp only [Option.getD_none, ne_eq, not_true_eq_false, if_false] at hg
    rw [m5]
    split at hg
    · rename_i hp
      exact absurd (List.isPrefixOf_iff_prefix.1 hp) hk
    · rw [← Option.some.inj hg]
      rfl
  · rw [if_neg (fun h => h ho)] at hg
    have hc : ∃ c ∈ b.filename, c ∉ ascii "0123456789abcdef" := ⟨91, hk.subset (by decide), by decide⟩
    have := htab hc
    rw [hz] at this
    have hv := Option.map_eq_none_iff.1 this
    rw [hv] at hg
    simp only [Option.getD_none, ne_eq, not_true_eq_false, if_false] at hg
    rw [m5]
    rw [if_pos (show List.isPrefixOf Normalizer.kernelPrefix b.filename = true from List.isPrefixOf_iff_prefix.2 hk)] at hg
    have hkid : cfg.ids.kernel = kernelEntry i.buildIds := by
      rw [hids, Normalizer.table_kernel, hnil]
      exact kernel_entry M.env.md5 i l
    rw [← Option.some.inj hg, hkid]
    unfold kernelEntry
    split
    · rename_i q _
      rw [← hexOf_raw, takeWhile_plain (Normalizer.hexOf_noNul q.hash)]
    · rfl

/-- C111. The mappings that the frames of a sample are shown in have the build IDs told in `Identified`. Whatever the bytes are, under the
conditions of `sample_shown_partial`, if the caller gives build IDs as texts of digits for names without NUL. For the build IDs that mappings of the
kernel get from an entry with another name the caller gives none (see `build_ids_kernel_violated`). -/
theorem build_ids_shown_partial {M : Machine} {ids : List (Bytes × Bytes)} {labels options : Nat} {threadTypes : List (Nat × Bytes)} {b : Bytes}
    {ps : List Converter.ProcessProfile} {st : Data.St} (hb : File.readBytes { env := M.env } b = some (some st))
    (hc : Calm options st.events) (hs : Steady st.events) (hspe : speTrace st.events = false) (hids : IsTable ids) (hx : HexTexts ids) (hn : PlainNames ids)
    (h : rawToProfiles M ids labels options threadTypes b = some ps) {t pre post : List Msg} {m : Msg} {s : Serial.SampleEvent} {k : Nat}
    (ht : Timeline st.base.info.attrs st.events t) (hm : t = pre ++ m :: post) (hbody : m.body = .sample s)
    (hk : owner st.base.info.attrs s.id = some k) :
    ∃ p ∈ ps, p.pid = (if options.testBit 0 then s.pid.getD 0 else 0) ∧ ∃ smp ∈ p.data.sample, 1 ≤ smp.value.getD (2 * k) 0 ∧
      All₂ (ShowsSpot (fun p m b => ShowsArea p m b ∧ Identified ids st.base.info.buildIds p m b)
        (Held st.base.info.attrs (options.testBit 3) (pre ++ [m]) (s.pid.getD 0)) p.data)
        (stackOf (options.testBit 3) pre.reverse m.misc s) smp.locationId :=
  sample_shown_by hb hc hs hspe h ht hm hbody hk fun r cfg hcfg p m b hsh => by
    refine ⟨?_, identified hids hx hn hcfg hsh⟩
    obtain ⟨hn, o, x, y, h1, h2, h3, h4, h5, h6⟩ := hsh
    exact shown_area h1 h2 h3 h4 hn h5 h6

/-! ### Examples -/

section
open Verif.File (exFile exMetadata fileImage)
open Verif.Serial (exMsg exMap exSample exInfo exEnv)

/-- A mapping whose record has no build ID. -/
def plainMap (pid start : Nat) (name : Bytes) (time : Nat) : Msg :=
  exMsg 1 0 (.mmap { pid := pid, tid := pid, start := start, len := 0x1000, pgoff := 0, filename := name, filenameMd5 := exEnv.md5 name,
                     info := { exInfo with time := some time } })

def exPlain : List Msg := [plainMap 10 0x4000 (ascii "/bin/a") 1, plainMap 10 0x8000 (ascii "/bin/ls") 2, plainMap 10 0xb000 (ascii "/bin/c") 3,
  plainMap (2 ^ 32 - 1) 0xffff000000000000 (ascii "[kernel.kallsyms]_text") 4, sampleMsg 2 0x4200 5, sampleMsg 2 0x8200 6, sampleMsg 2 0xb200 7,
  sampleMsg 1 0xffff000000000010 8]

def exGiven : List (Bytes × Bytes) := [(ascii "/bin/a", ascii "abcd0000ef"), (ascii "[kernel.kallsyms]", ascii "0123456789abcdef")]

theorem exGiven_hex : HexTexts exGiven := by
  intro p hp
  simp only [exGiven, List.mem_cons, List.not_mem_nil, or_false] at hp
  rcases hp with rfl | rfl
  · exact ⟨[0xab, 0xcd, 0, 0, 0xef], by decide +kernel⟩
  · exact ⟨[0x01, 0x23, 0x45, 0x67, 0x89, 0xab, 0xcd, 0xef], by decide +kernel⟩

/-- The conditions are met by the bytes of a recording with mappings of a file with a given build ID, one with a recorded build ID, one with none, and of the kernel. -/
example : IsTable exGiven ∧ HexTexts exGiven ∧ PlainNames exGiven ∧
    (∃ st, File.readBytes { env := exEnv } (fileImage (recordingOf exPlain)) = some (some st) ∧ Calm 0 st.events ∧ Steady st.events ∧
      speTrace st.events = false ∧ (∃ pre m post s, Timeline st.base.info.attrs st.events (pre ++ m :: post) ∧
        m.body = .sample s ∧ owner st.base.info.attrs s.id = some 0 ∧ (stackOf false pre.reverse m.misc s).map (fun g => (g.1, g.2.map (·.filename))) =
          [(0xffff000000000010, some (ascii "[kernel.kallsyms]_text"))])) ∧
    [ascii "/bin/a", ascii "/bin/ls", ascii "/bin/c", ascii "[kernel.kallsyms]_text"].map (fileId exGiven exMetadata.buildIds) =
      [some (digits40 (ascii "abcd0000ef")), some (digits40 (ascii "0102030405060708")), none, some (digits40 (ascii "0123456789abcdef"))] ∧
    (rawToProfiles exMachine exGiven 0 0 [] (fileImage (recordingOf exPlain))).map mapsOf =
      some [[([0x4000, 0x5000, 0], [ascii "/bin/a", ascii "abcd0000ef000000"]), ([0x8000, 0x9000, 0], [ascii "/bin/ls", ascii "0102030405060708"]),
        ([0xb000, 0xc000, 0], [ascii "/bin/c", []]),
        ([0xffff000000000000, 0xffff000000001000, 0], [ascii "[kernel.kallsyms]_text", ascii "0123456789abcdef"])]] := by
  have h1 : ((File.readBytes { env := exEnv } (fileImage (recordingOf exPlain))).bind id).bind (fun st => stackAtB 0 st 7) = some (some 0,
        [(0xffff000000000010, some (ascii "[kernel.kallsyms]_text"))]) := by
    decide +kernel
  have h2 : [ascii "/bin/a", ascii "/bin/ls", ascii "/bin/c", ascii "[kernel.kallsyms]_text"].map (fileId exGiven exMetadata.buildIds) =
      [some (digits40 (ascii "abcd0000ef")), some (digits40 (ascii "0102030405060708")), none, some (digits40 (ascii "0123456789abcdef"))] := by
    decide +kernel
  have h3 : (rawToProfiles exMachine exGiven 0 0 [] (fileImage (recordingOf exPlain))).map mapsOf =
      some [[([0x4000, 0x5000, 0], [ascii "/bin/a", ascii "abcd0000ef000000"]), ([0x8000, 0x9000, 0], [ascii "/bin/ls", ascii "0102030405060708"]),
        ([0xb000, 0xc000, 0], [ascii "/bin/c", []]),
        ([0xffff000000000000, 0xffff000000001000, 0], [ascii "[kernel.kallsyms]_text", ascii "0123456789abcdef"])]] := by decide +kernel
  refine ⟨by unfold IsTable; decide +kernel, exGiven_hex, by unfold PlainNames; decide +kernel, ?_, h2, h3⟩
  cases hr : File.readBytes { env := exEnv } (fileImage (recordingOf exPlain)) with
  | none => rw [hr] at h1; cases h1
  | some o =>
    cases o with
    | none => rw [hr] at h1; cases h1
    | some st =>
      rw [hr] at h1
      obtain ⟨k1, k2, k3, k4⟩ := stackAt_of h1
      exact ⟨st, rfl, k1, k2, k3, k4⟩

/-- A mapping of the kernel that has no entry is shown with the build ID of another entry of the kernel. -/
example : fileId [] exMetadata.buildIds (ascii "[kernel.kallsyms]_text") = none ∧ kernelEntry exMetadata.buildIds = ascii "deadbeef" ∧
    (rawToProfiles exMachine [] 0 0 []
      (fileImage (recordingOf [plainMap (2 ^ 32 - 1) 0xffff000000000000 (ascii "[kernel.kallsyms]_text") 4, sampleMsg 1 0xffff000000000010 8]))).map mapsOf =
      some [[([0, 1, 0], [[], []]), ([0xffff000000000000, 0xffff000000001000, 0], [ascii "[kernel.kallsyms]_text", ascii "deadbeef"])]] := by
  refine ⟨?_, ?_, ?_⟩
  · decide +kernel
  · decide +kernel
  · decide +kernel

/-- A recording without build IDs. -/
def anonymous (l : List Msg) : File.Recording where
  info := { exMetadata with buildIds := [] }
  events := l.map (fun m => (exFile, m))

/-- C111 fails if the caller gives build IDs of files that are not in the recording: a mapping of the kernel that has no entry is shown with the build ID of such a file. -/
theorem build_ids_kernel_violated :
    (rawToProfiles exMachine [(ascii "/bin/other", ascii "0123456789abcdef")] 0 0 []
      (fileImage (anonymous [plainMap (2 ^ 32 - 1) 0xffff000000000000 (ascii "[kernel.kallsyms]_text") 4, sampleMsg 1 0xffff000000000010 8]))).map mapsOf =
      some [[([0, 1, 0], [[], []]), ([0xffff000000000000, 0xffff000000001000, 0], [ascii "[kernel.kallsyms]_text", ascii "0123456789abcdef"])]] ∧
    (rawToProfiles exMachine [] 0 0 []
      (fileImage (anonymous [plainMap (2 ^ 32 - 1) 0xffff000000000000 (ascii "[kernel.kallsyms]_text") 4, sampleMsg 1 0xffff000000000010 8]))).map mapsOf =
      some [[([0, 1, 0], [[], []]), ([0xffff000000000000, 0xffff000000001000, 0], [ascii "[kernel.kallsyms]_text", []])]] := by
  refine ⟨?_, ?_⟩
  · decide +kernel
  · decide +kernel

/-- C111 fails for a given text that is no build ID: the digits before the first other character are shown, as if they were one. -/
theorem build_ids_malformed_violated :
    (rawToProfiles exMachine [(ascii "/bin/a", ascii "0123456789xyz")] 0 0 []
      (fileImage (recordingOf [plainMap 10 0x4000 (ascii "/bin/a") 1, sampleMsg 2 0x4200 5]))).map mapsOf =
      some [[([0x4000, 0x5000, 0], [ascii "/bin/a", ascii "0123456789000000"])]] := by decide +kernel

end

end Verif.Whole
