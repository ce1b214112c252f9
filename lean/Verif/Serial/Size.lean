import Verif.Serial.Exact

/-! The size of an event's own data. -/

namespace Verif.Serial
open Verif.Buffer Verif.Event Verif.Sample Verif.Attr Verif.Util

theorem dataSize_of {e : RawEvent} {f n : Nat} (hf : fixedPayloadSize e.type = some f) (hle : f + n ≤ e.size)
    (hv : variableSize e (e.size - f) = some (some n)) (h8 : n % 8 = 0) : eventDataSize e = some (f + n) := by
  unfold eventDataSize variablePayloadSize
  rw [hf]
  simp only
  rw [if_neg (by omega), hv]
  simp only [h8, ne_eq, not_true, if_false]

theorem total_text (s : Bytes) : total (text s) = 8 * (s.length / 8 + 1) := by
  simp only [text, total_cons, total_nil, Piece.len]; omega

theorem total_array {n : Nat} {s : Bytes} (h : s.length ≤ n) : total (array n s) = n := by
  simp only [array, total_cons, total_nil, Piece.len]; omega

theorem strnlen_image {e : RawEvent} {A B : List Piece} {s rest : Bytes} {off k max : Nat}
    (hp : e.payload = image (A ++ .bytes s :: .pad k :: B) ++ rest) (ho : off = 8 + total A) (hk : 0 < k)
    (hs : (0 : UInt8) ∉ s) (hm : s.length < max) (hle : off + max ≤ e.size) : strnlen e off max = some s.length := by
  unfold strnlen fetch RawEvent.size at *
  rw [if_pos (by omega), if_pos (by omega), hp, image_append, image_cons, image_cons, ho,
    show 8 + total A - 8 = (image A).length by rw [image_length]; omega]
  simp only [List.append_assoc, List.drop_left, pieceBytes]
  obtain ⟨k, rfl⟩ : ∃ j, k = j + 1 := ⟨k - 1, by omega⟩
  obtain ⟨max, rfl⟩ : ∃ j, max = s.length + (j + 1) := ⟨max - s.length - 1, by omega⟩
  rw [List.replicate_succ, List.cons_append, List.take_append, List.take_of_length_le (by omega),
    show s.length + (max + 1) - s.length = max + 1 by omega, List.take_succ_cons, Option.map_some, takeWhile_name hs]

theorem aligned_image {e : RawEvent} {A B : List Piece} {s rest : Bytes} {off k max : Nat}
    (hp : e.payload = image (A ++ .bytes s :: .pad k :: B) ++ rest) (ho : off = 8 + total A) (hk : 0 < k)
    (hs : (0 : UInt8) ∉ s) (hm : 8 * (s.length / 8 + 1) ≤ max) (hle : off + max ≤ e.size) (hok : e.Ok) :
    alignedString e off max = some (some (8 * (s.length / 8 + 1))) := by
  have hok' : e.size < 2 ^ 16 := hok
  unfold alignedString
  rw [strnlen_image hp ho hk hs (by omega) hle]
  simp only
  rw [if_neg (by omega), aligned_eq (by omega), if_neg (by omega)]

theorem aligned_text {e : RawEvent} {A : List Piece} {s rest : Bytes} {off cap : Nat}
    (hp : e.payload = image (A ++ text s) ++ rest) (ho : off = 8 + total A) (hs : Name cap s) (hc : cap % 8 = 0) (hok : e.Ok) :
    alignedString e off (min (e.size - off) cap) = some (some (total (text s))) := by
  have hsz : e.size = 8 + total A + total (text s) + rest.length := by
    unfold RawEvent.size; rw [hp]; simp [image_length, total_append]; omega
  rw [total_text] at hsz ⊢
  have := hs.2
  exact aligned_image (A := A) (B := []) (k := 8 - s.length % 8) hp ho (by omega) hs.1 (by omega) (by omega) hok

theorem unhex_hex : ∀ id : Bytes, unhex (rawDataToHexString id) = id
  | [] => rfl
  | b :: l => by
    have h : ∀ n : Fin 256, 16 * digit (hexDigit (n.val / 16)) + digit (hexDigit (n.val % 16)) = UInt8.ofNat n.val := by
      decide +kernel
    have h' := h ⟨b.toNat, b.toNat_lt⟩
    simp only [UInt8.ofNat_toNat] at h'
    simp only [rawDataToHexString, List.cons_append, List.nil_append, unhex, h', unhex_hex l]

theorem total_buildId {id : Bytes} (h : id.length ≤ 20) : total (buildIdFields id) = 24 := by
  simp only [buildIdFields, total_cons, total_nil, Piece.len, List.length_cons, List.length_nil]; omega

theorem checkComms_image {e : RawEvent} {A : List Piece} {l : List ThreadEntry} {rest : Bytes}
    (hp : e.payload = image (A ++ l.flatMap (fun x => [.u64 x.pid] ++ array 16 x.comm) ++ []) ++ rest) (hA : total A = 8)
    (hl : ∀ x ∈ l, Name 16 x.comm) (hok : e.Ok) : ∀ (post pre : List ThreadEntry), l = pre ++ post →
      checkComms e pre.length post.length = some true
  | [], _, _ => rfl
  | x :: post, pre, h => by
    have ht : ∀ y ∈ l, total ([.u64 y.pid] ++ array 16 y.comm) = 24 := fun y hy => by
      rw [total_append, total_array (by have := (hl y hy).2; omega)]; rfl
    have h1 := entry_image hp h
    have hx := hl x (by rw [h]; simp)
    have hpre : total (pre.flatMap fun x => [Piece.u64 x.pid] ++ array 16 x.comm) = 24 * pre.length :=
      total_flatMap pre fun y hy => ht y (by rw [h]; simp [hy])
    have hsz : 8 + (total A + 24 * pre.length + (24 + 0)) ≤ e.size := by
      unfold RawEvent.size
      rw [h1, List.length_append, image_length, total_append, total_append, total_append, hpre, ht x (by rw [h]; simp)]
      omega
    simp only [List.length_cons, checkComms]
    rw [aligned_image (A := A ++ pre.flatMap (fun x => [.u64 x.pid] ++ array 16 x.comm) ++ [.u64 x.pid])
      (B := post.flatMap (fun x => [.u64 x.pid] ++ array 16 x.comm) ++ []) (k := 16 - x.comm.length) (s := x.comm) (rest := rest)
      (by rw [h1]; simp [array]) (by rw [total_append, total_append, hpre, hA]; simp [total, Piece.len]; omega)
      (by have := hx.2; omega) hx.1 (by have := hx.2; omega) (by omega) hok]
    simp only
    have := checkComms_image hp hA hl hok post (pre ++ [x]) (by rw [h]; simp)
    rwa [List.length_append] at this

/-! `variableSize` at each type -/

theorem var_namespaces (misc : Nat) (p : Bytes) (r : Nat) : variableSize ⟨NAMESPACES, misc, p⟩ r =
    match RawEvent.int ⟨NAMESPACES, misc, p⟩ 16 8 with
    | none => none
    | some nr => if nr > r / 16 then some none else some (some (nr * 16 % 2 ^ 64)) := rfl

theorem var_bpf (misc : Nat) (p : Bytes) (r : Nat) : variableSize ⟨BPF_METADATA, misc, p⟩ r =
    match RawEvent.int ⟨BPF_METADATA, misc, p⟩ 520 8 with
    | none => none
    | some nr => if nr * 320 % 2 ^ 64 > r then some none else some (some (nr * 320 % 2 ^ 64)) := rfl

theorem var_error (misc : Nat) (p : Bytes) (r : Nat) : variableSize ⟨AUXTRACE_ERROR, misc, p⟩ r =
    match alignedString ⟨AUXTRACE_ERROR, misc, p⟩ 40 (min r 64) with
    | none => none
    | some none => some none
    | some (some n) => if n ≠ r then some none else some (some n) := rfl

theorem var_index (misc : Nat) (p : Bytes) (r : Nat) : variableSize ⟨ID_INDEX, misc, p⟩ r =
    match RawEvent.int ⟨ID_INDEX, misc, p⟩ 8 8 with
    | none => none
    | some nr => if nr ≠ r / 32 then some none else if nr * 32 % 2 ^ 64 ≠ r then some none else some (some (nr * 32 % 2 ^ 64)) := rfl

theorem var_config (misc : Nat) (p : Bytes) (r : Nat) : variableSize ⟨STAT_CONFIG, misc, p⟩ r =
    match RawEvent.int ⟨STAT_CONFIG, misc, p⟩ 8 8 with
    | none => none
    | some nr => if nr ≠ r / 16 then some none else if nr * 16 % 2 ^ 64 ≠ r then some none else some (some (nr * 16 % 2 ^ 64)) := rfl

theorem var_threads (misc : Nat) (p : Bytes) (r : Nat) : variableSize ⟨THREAD_MAP, misc, p⟩ r =
    match RawEvent.int ⟨THREAD_MAP, misc, p⟩ 8 8 with
    | none => none
    | some nr =>
      if nr ≠ r / 24 then some none else if nr * 24 % 2 ^ 64 ≠ r then some none
      else match checkComms ⟨THREAD_MAP, misc, p⟩ 0 nr with
        | none => none
        | some false => some none
        | some true => some (some (nr * 24 % 2 ^ 64)) := rfl

/-- The size that is computed for an event is that of its own fields. -/
theorem dataSize_own {env : Env} {e : RawEvent} {misc : Nat} {b : Body} {rest : Bytes} (hb : BodyOk env e.type misc b)
    (hp : e.payload = image (own e.type b) ++ rest) (hok : e.Ok) (hr : carriesSample e.type = false → rest = []) :
    eventDataSize e = some (8 + total (own e.type b)) := by
  have hok' : e.size < 2 ^ 16 := hok
  have hsz : e.size = 8 + total (own e.type b) + rest.length := by
    unfold RawEvent.size; rw [hp]; simp [image_length]; omega
  -- events without a variable part
  have fixed : ∀ {f : Nat}, fixedPayloadSize e.type = some f → 8 + total (own e.type b) = f → 
      variableSize e (e.size - f) = some (some 0) → eventDataSize e = some (8 + total (own e.type b)) := by
    intro f hf ht hv
    rw [ht]; exact dataSize_of (n := 0) hf (by omega) hv rfl
  obtain ⟨type, misc', payload⟩ := e
  simp only at *
  cases b with
  | none =>
    have hb : type = FINISHED_ROUND := hb
    subst hb
    have hr := hr (by decide)
    subst hr
    refine fixed rfl rfl ?_
    rw [hsz]
    rfl
  | sample s =>
    have hb : type = SAMPLE := hb
    subst hb
    exact fixed rfl rfl rfl
  | mmap m =>
    obtain ⟨-, -, -, -, -, ⟨hn, -⟩, hb⟩ := hb
    rcases hb with ⟨rfl, -⟩ | ⟨rfl, -, -, -, hb⟩
    · have hL : own MMAP (.mmap m) = [.u32 m.pid, .u32 m.tid, .u64 m.start, .u64 m.len, .u64 m.pgoff] ++ text m.filename := rfl
      rw [hL] at hp hsz ⊢
      have ha := aligned_text hp (off := 40) rfl hn (by decide) hok
      have := dataSize_of (e := ⟨MMAP, misc', payload⟩) (f := 40) (n := total (text m.filename)) rfl (by rw [hsz, total_append]; simp [total, Piece.len]; omega) ha
        (by rw [total_text]; omega)
      rw [this, total_append]; simp [total, Piece.len]; omega
    · let U : List Piece := match m.buildId with
        | some h => buildIdFields (unhex h)
        | none => [.u32 m.maj, .u32 m.min, .u64 m.ino, .u64 m.inoGeneration]
      have hL : own MMAP2 (.mmap m) = ([.u32 m.pid, .u32 m.tid, .u64 m.start, .u64 m.len, .u64 m.pgoff] ++ U ++
        [.u32 m.prot, .u32 m.flags]) ++ text m.filename := rfl
      have hU : total U = 24 := by
        simp only [U]
        cases hbid : m.buildId with
        | none => rfl
        | some h =>
          rw [hbid] at hb
          obtain ⟨-, -, -, -, id, hid, rfl⟩ := hb
          simp only [unhex_hex]
          exact total_buildId hid
      rw [hL] at hp hsz ⊢
      have hA : total ([.u32 m.pid, .u32 m.tid, .u64 m.start, .u64 m.len, .u64 m.pgoff] ++ U ++ [.u32 m.prot, .u32 m.flags]) = 64 := by
        rw [total_append, total_append, hU]; rfl
      have ha := aligned_text hp (off := 72) (by rw [hA]) hn (by decide) hok
      have := dataSize_of (e := ⟨MMAP2, misc', payload⟩) (f := 72) (n := total (text m.filename)) rfl (by rw [hsz, total_append, hA]; omega) ha
        (by rw [total_text]; omega)
      rw [this, total_append, hA]; simp; omega
  | comm m =>
    obtain ⟨rfl, -, -, hn, -⟩ := hb
    have ha := aligned_text (A := [.u32 m.pid, .u32 m.tid]) hp (off := 16) rfl hn (by decide) hok
    have := dataSize_of (e := ⟨COMM, misc', payload⟩) (f := 16) (n := total (text m.comm)) rfl
      (by rw [hsz]; simp only [own, total_append]; simp [total, Piece.len]; omega) ha
      (by rw [total_text]; omega)
    rw [this]; simp only [own, total_append]; simp [total, Piece.len]; omega
  | fork m => obtain ⟨rfl, -⟩ := hb; exact fixed rfl rfl rfl
  | exit m => obtain ⟨rfl, -⟩ := hb; exact fixed rfl rfl rfl
  | lost m => obtain ⟨rfl, -⟩ := hb; exact fixed rfl rfl rfl
  | throttle m =>
    obtain ⟨rfl | rfl, -⟩ := hb
    · exact fixed rfl rfl rfl
    · exact fixed rfl rfl rfl
  | aux m => obtain ⟨rfl, -⟩ := hb; exact fixed rfl rfl rfl
  | itraceStart m => obtain ⟨rfl, -⟩ := hb; exact fixed rfl rfl rfl
  | lostSamples m => obtain ⟨rfl, -⟩ := hb; exact fixed rfl rfl rfl
  | switch m =>
    obtain ⟨-, ⟨rfl, -⟩ | ⟨rfl, -⟩⟩ := hb
    · exact fixed rfl rfl rfl
    · exact fixed rfl rfl rfl
  | namespaces m =>
    obtain ⟨rfl, -, -, -⟩ := hb
    have ht : total (m.links.flatMap fun x => [Piece.u64 x.1, .u64 x.2]) = 16 * m.links.length := total_flatMap _ fun _ _ => rfl
    have ht' : total (own NAMESPACES (.namespaces m)) = 16 + 16 * m.links.length := by
      simp only [own, total_append, ht]; simp [total, Piece.len]
    rw [ht'] at hsz ⊢
    have hi : RawEvent.int ⟨NAMESPACES, misc', payload⟩ 16 8 = some m.links.length :=
      u64_image (A := [.u32 m.pid, .u32 m.tid]) hp rfl (by omega)
    have hv : variableSize ⟨NAMESPACES, misc', payload⟩ (RawEvent.size ⟨NAMESPACES, misc', payload⟩ - 24) =
        some (some (16 * m.links.length)) := by
      rw [var_namespaces, hi]
      simp only
      rw [if_neg (by omega)]
      simp only [Option.some.injEq]; omega
    rw [dataSize_of (f := 24) rfl (by omega) hv (by omega)]
    simp only [Option.some.injEq]; omega
  | cgroup m =>
    obtain ⟨rfl, -, hn⟩ := hb
    have ha := aligned_text (A := [.u64 m.id]) hp (off := 16) rfl hn (by decide) hok
    have := dataSize_of (e := ⟨CGROUP, misc', payload⟩) (f := 16) (n := total (text m.path)) rfl
      (by rw [hsz]; simp only [own, total_append]; simp [total, Piece.len]; omega) ha
      (by rw [total_text]; omega)
    rw [this]; simp only [own, total_append]; simp [total, Piece.len]; omega
  | ksymbol m =>
    obtain ⟨rfl, -, -, -, -, hn⟩ := hb
    have ha := aligned_text (A := [.u64 m.addr, .u32 m.len, .u16 m.ksymType, .u16 m.flags]) hp (off := 24) rfl hn (by decide) hok
    have := dataSize_of (e := ⟨KSYMBOL, misc', payload⟩) (f := 24) (n := total (text m.name)) rfl
      (by rw [hsz]; simp only [own, total_append]; simp [total, Piece.len]; omega) ha
      (by rw [total_text]; omega)
    rw [this]; simp only [own, total_append]; simp [total, Piece.len]; omega
  | bpf m =>
    obtain ⟨rfl, hn, hm, -, -⟩ := hb
    have ht : total (m.metadata.flatMap fun x => array 64 x.1 ++ array 256 x.2) = 320 * m.metadata.length :=
      total_flatMap _ fun x hx => by
        rw [total_append, total_array (by have := (hm x hx).1.2; omega), total_array (by have := (hm x hx).2.2; omega)]
    have ha : total (array 512 m.progName) = 512 := total_array (by have := hn.2; omega)
    have ht' : total (own BPF_METADATA (.bpf m)) = 520 + 320 * m.metadata.length := by
      simp only [own, total_append, ht, ha]; simp [total, Piece.len]
    rw [ht'] at hsz ⊢
    have hi : RawEvent.int ⟨BPF_METADATA, misc', payload⟩ 520 8 = some m.metadata.length :=
      u64_image (A := array 512 m.progName) (rest := rest) (B := m.metadata.flatMap fun x => array 64 x.1 ++ array 256 x.2)
        (by rw [hp]; simp [own]) (by rw [ha]) (by omega)
    have hv : variableSize ⟨BPF_METADATA, misc', payload⟩ (RawEvent.size ⟨BPF_METADATA, misc', payload⟩ - 528) =
        some (some (320 * m.metadata.length)) := by
      rw [var_bpf, hi]
      simp only
      rw [if_neg (by omega)]
      simp only [Option.some.injEq]; omega
    rw [dataSize_of (f := 528) rfl (by omega) hv (by omega)]
    simp only [Option.some.injEq]; omega
  | auxtraceInfo m =>
    obtain ⟨rfl, -, -⟩ := hb
    have hr := hr (by decide)
    subst hr
    have ht : total (m.priv.flatMap fun x => [Piece.u64 x]) = 8 * m.priv.length := total_flatMap _ fun _ _ => rfl
    have ht' : total (own AUXTRACE_INFO (.auxtraceInfo m)) = 8 + 8 * m.priv.length := by
      simp only [own, total_append, ht]; simp [total, Piece.len]
    rw [ht'] at hsz ⊢
    simp only [List.length_nil] at hsz
    have hv : variableSize ⟨AUXTRACE_INFO, misc', payload⟩ (RawEvent.size ⟨AUXTRACE_INFO, misc', payload⟩ - 16) =
        some (some (8 * m.priv.length)) := by
      show some (some _) = _
      simp only [Option.some.injEq]; omega
    rw [dataSize_of (f := 16) rfl (by omega) hv (by omega)]
    simp only [Option.some.injEq]; omega
  | auxtrace m =>
    obtain ⟨rfl, -⟩ := hb
    have hr := hr (by decide)
    subst hr
    refine fixed rfl rfl ?_
    rw [hsz]
    rfl
  | auxtraceError m =>
    obtain ⟨rfl, -, -, -, -, -, -, hn, -⟩ := hb
    have hr := hr (by decide)
    subst hr
    have ha := aligned_text (A := [.u32 m.type, .u32 m.code, .u32 m.cpu, .u32 m.pid, .u32 m.tid, .pad 4, .u64 m.ip]) hp (off := 40) rfl
      hn (by decide) hok
    have ht : total (own AUXTRACE_ERROR (.auxtraceError m)) = 32 + total (text m.msg) := by
      simp only [own, total_append]; simp [total, Piece.len]
    rw [ht] at hsz ⊢
    simp only [List.length_nil] at hsz
    have hv : variableSize ⟨AUXTRACE_ERROR, misc', payload⟩ (RawEvent.size ⟨AUXTRACE_ERROR, misc', payload⟩ - 40) =
        some (some (total (text m.msg))) := by
      rw [var_error, ha]
      simp only
      rw [if_neg (by omega)]
    rw [dataSize_of (f := 40) rfl (by omega) hv (by rw [total_text]; omega)]
    simp only [Option.some.injEq]; omega
  | idIndex l =>
    obtain ⟨rfl, -⟩ := hb
    have hr := hr (by decide)
    subst hr
    have ht : total (l.flatMap fun x => [Piece.u64 x.id, .u64 x.idx, .u64 x.cpu, .u64 x.tid]) = 32 * l.length :=
      total_flatMap _ fun _ _ => rfl
    have ht' : total (own ID_INDEX (.idIndex l)) = 8 + 32 * l.length := by
      simp only [own, total_append, ht]; simp [total, Piece.len]
    rw [ht'] at hsz ⊢
    simp only [List.length_nil] at hsz
    have hi : RawEvent.int ⟨ID_INDEX, misc', payload⟩ 8 8 = some l.length := u64_image (A := []) hp rfl (by omega)
    have hv : variableSize ⟨ID_INDEX, misc', payload⟩ (RawEvent.size ⟨ID_INDEX, misc', payload⟩ - 16) =
        some (some (32 * l.length)) := by
      rw [var_index, hi]
      simp only
      rw [if_neg (by omega), if_neg (by omega)]
      simp only [Option.some.injEq]; omega
    rw [dataSize_of (f := 16) rfl (by omega) hv (by omega)]
    simp only [Option.some.injEq]; omega
  | threadMap l =>
    obtain ⟨rfl, hl⟩ := hb
    have hr := hr (by decide)
    subst hr
    have ht : total (l.flatMap fun x => [Piece.u64 x.pid] ++ array 16 x.comm) = 24 * l.length :=
      total_flatMap _ fun x hx => by rw [total_append, total_array (by have := (hl x hx).2.1.2; omega)]; rfl
    have ht' : total (own THREAD_MAP (.threadMap l)) = 8 + 24 * l.length := by
      simp only [own, total_append, ht]; simp [total, Piece.len]
    rw [ht'] at hsz ⊢
    simp only [List.length_nil] at hsz
    have hi : RawEvent.int ⟨THREAD_MAP, misc', payload⟩ 8 8 = some l.length := u64_image (A := []) hp rfl (by omega)
    have hc : checkComms ⟨THREAD_MAP, misc', payload⟩ 0 l.length = some true :=
      checkComms_image (A := [.u64 l.length]) (l := l) (rest := []) (by rw [hp]; simp [own]) rfl
        (fun x hx => (hl x hx).2.1) hok l [] rfl
    have hv : variableSize ⟨THREAD_MAP, misc', payload⟩ (RawEvent.size ⟨THREAD_MAP, misc', payload⟩ - 16) =
        some (some (24 * l.length)) := by
      rw [var_threads, hi]
      simp only
      rw [if_neg (by omega), if_neg (by omega), hc]
      simp only [Option.some.injEq]; omega
    rw [dataSize_of (f := 16) rfl (by omega) hv (by omega)]
    simp only [Option.some.injEq]; omega
  | statConfig l =>
    obtain ⟨rfl, -⟩ := hb
    have hr := hr (by decide)
    subst hr
    have ht : total (l.flatMap fun x => [Piece.u64 x.1, .u64 x.2]) = 16 * l.length := total_flatMap _ fun _ _ => rfl
    have ht' : total (own STAT_CONFIG (.statConfig l)) = 8 + 16 * l.length := by
      simp only [own, total_append, ht]; simp [total, Piece.len]
    rw [ht'] at hsz ⊢
    simp only [List.length_nil] at hsz
    have hi : RawEvent.int ⟨STAT_CONFIG, misc', payload⟩ 8 8 = some l.length := u64_image (A := []) hp rfl (by omega)
    have hv : variableSize ⟨STAT_CONFIG, misc', payload⟩ (RawEvent.size ⟨STAT_CONFIG, misc', payload⟩ - 16) =
        some (some (16 * l.length)) := by
      rw [var_config, hi]
      simp only
      rw [if_neg (by omega), if_neg (by omega)]
      simp only [Option.some.injEq]; omega
    rw [dataSize_of (f := 16) rfl (by omega) hv (by omega)]
    simp only [Option.some.injEq]; omega
  | stat m =>
    obtain ⟨rfl, -⟩ := hb
    have hr := hr (by decide)
    subst hr
    refine fixed rfl rfl ?_
    rw [hsz]
    rfl
  | statRound ty t =>
    obtain ⟨rfl, -⟩ := hb
    have hr := hr (by decide)
    subst hr
    refine fixed rfl rfl ?_
    rw [hsz]
    rfl
  | timeConv m =>
    obtain ⟨rfl, -⟩ := hb
    have hr := hr (by decide)
    subst hr
    simp only [List.length_nil, Nat.add_zero] at hsz
    cases hc : m.cycles with
    | none =>
      have ht : total (own TIME_CONV (.timeConv m)) = 24 := by simp only [own, hc]; rfl
      refine fixed rfl (by rw [ht]) ?_
      rw [hsz, ht]
      rfl
    | some c =>
      have ht : total (own TIME_CONV (.timeConv m)) = 48 := by simp only [own, hc]; rfl
      rw [ht] at hsz ⊢
      exact dataSize_of (e := ⟨TIME_CONV, misc', payload⟩) (f := 32) (n := 24) rfl (by omega) (by rw [hsz]; rfl) rfl

end Verif.Serial
