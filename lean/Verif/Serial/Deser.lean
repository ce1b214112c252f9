import Verif.Serial.Write

/-! Messages are written as the events they describe. -/

namespace Verif.Serial
open Verif.Buffer Verif.Event Verif.Sample Verif.Attr Verif.Util

/-- Stores that cover the fields of `L`, whose bytes are those of `O`. -/
def Covers (l : List (Nat × Bytes)) (off : Nat) (O : List Piece) : Prop := ∃ L, l = stores off L ∧ image L = image O

theorem covers_total {L O : List Piece} (h : image L = image O) : total L = total O := by
  rw [← image_length, ← image_length, h]

theorem Covers.same (off : Nat) (L : List Piece) : Covers (stores off L) off L := ⟨L, rfl, rfl⟩

theorem Covers.app {l m : List (Nat × Bytes)} {off : Nat} {O P : List Piece} (h1 : Covers l off O) (h2 : Covers m (off + total O) P) :
    Covers (l ++ m) off (O ++ P) := by
  obtain ⟨L, rfl, e1⟩ := h1
  obtain ⟨M, rfl, e2⟩ := h2
  exact ⟨L ++ M, by rw [stores_append, covers_total e1], by rw [image_append, image_append, e1, e2]⟩

theorem Covers.puts {l : List (Nat × Bytes)} {O : List Piece} {P : Bytes} {off : Nat} (h : Covers l off O) (ho : off = 8 + P.length) (k : Nat) :
    puts l (P ++ zeros (total O + k)) = some ((P ++ image O) ++ zeros k) := by
  obtain ⟨L, rfl, e⟩ := h
  rw [← covers_total e, puts_image L P off k ho, e]

theorem Covers.name {off max n : Nat} {s : Bytes} (h : Name max s) (hn : 0 < n) : Covers [snprintf off max s] off [.bytes s, .pad n] := by
  refine ⟨[.bytes (s ++ [0]), .pad (n - 1)], by rw [snprintf_name h]; rfl, ?_⟩
  obtain ⟨k, rfl⟩ : ∃ k, n = k + 1 := ⟨n - 1, by omega⟩
  simp [image, pieceBytes, List.replicate_succ]

theorem Covers.text {off max : Nat} {s : Bytes} (h : Name max s) : Covers [snprintf off max s] off (text s) :=
  Covers.name h (by omega)

theorem Covers.array {off max : Nat} {s : Bytes} (h : Name max s) : Covers [snprintf off max s] off (array max s) :=
  Covers.name h (by have := h.2; omega)

theorem Covers.list {α : Type} {f : Nat → α → List (Nat × Bytes)} {g : α → List Piece} {off sz : Nat} : ∀ (l : List α) (i : Nat),
    (∀ i, ∀ a ∈ l, Covers (f i a) (off + sz * i) (g a)) → (∀ a ∈ l, total (g a) = sz) →
    Covers (listStores f i l) (off + sz * i) (l.flatMap g)
  | [], _, _, _ => ⟨[], rfl, rfl⟩
  | a :: l, i, h, ht => by
    rw [List.flatMap_cons, listStores]
    refine Covers.app (h i a (by simp)) ?_
    rw [ht a (by simp), Nat.add_assoc, ← Nat.mul_succ]
    exact Covers.list l (i + 1) (fun j b hb => h j b (by simp [hb])) (fun b hb => ht b (by simp [hb]))

theorem Covers.list0 {α : Type} {f : Nat → α → List (Nat × Bytes)} {g : α → List Piece} {off sz : Nat} {l : List α}
    (h : ∀ i, ∀ a ∈ l, Covers (f i a) (off + sz * i) (g a)) (ht : ∀ a ∈ l, total (g a) = sz) :
    Covers (listStores f 0 l) off (l.flatMap g) := Covers.list l 0 h ht

/-! ## Sample fields -/

/-- The memory of the event a message is written to. -/
def blank (a : Sample.Attr) (m : Msg) : RawEvent :=
  ⟨m.type, m.misc, zeros (total (own m.type m.body) + total (sampleFields a m.body))⟩

theorem half_dataSize {env : Env} {a : Sample.Attr} {m : Msg} (h : MsgOk env a m) (hc : carriesSample m.type = true) :
    eventDataSize ⟨m.type, m.misc, image (own m.type m.body) ++ zeros (total (sampleFields a m.body))⟩ =
      some (8 + (image (own m.type m.body)).length) := by
  rw [image_length]
  refine dataSize_own (e := ⟨m.type, m.misc, image (own m.type m.body) ++ zeros (total (sampleFields a m.body))⟩) h.body rfl ?_
    fun hc' => absurd (hc.symm.trans hc') (by decide)
  have h1 := h.fits
  rw [h.size, wire_size] at h1
  show 8 + (image (own m.type m.body) ++ zeros (total (sampleFields a m.body))).length < 2 ^ 16
  rw [List.length_append, image_length, List.length_replicate]
  omega

theorem writeInfo_wire {env : Env} {fs : List FileAttr} {ser : Ser} {f : FileAttr} {m : Msg} {i : SampleInfo} {l : List (Nat × Bytes)}
    (hr : Recorded fs ser f m.body) (hm : MsgOk env f.attr.sample m) (hi : info m.body = some i)
    (hl : puts l (blank f.attr.sample m).payload = some (image (own m.type m.body) ++ zeros (total (sampleFields f.attr.sample m.body)))) :
    writeInfo ser (blank f.attr.sample m) l i = some (some (wire f.attr.sample m)) := by
  obtain ⟨hty, hcs, hf, h⟩ := recorded_info hr hm hi
  unfold writeInfo
  rw [hl]
  simp only
  show (if ¬ containsSampleInfo ser m.type = true then
      some (some (⟨m.type, m.misc, image (own m.type m.body) ++ zeros (total (sampleFields f.attr.sample m.body))⟩ : RawEvent))
    else writeSampleOf ser (sampleOfInfo i)
      ⟨m.type, m.misc, image (own m.type m.body) ++ zeros (total (sampleFields f.attr.sample m.body))⟩) = _
  rcases h with ⟨h18, hcn, hnil⟩ | ⟨h18, hcn, hsup, hfit, hsi, hrd⟩
  · rw [if_pos (by simp [hcn])]
    unfold wire
    rw [hnil]
    simp [total]
  · rw [if_neg (by simp [hcn])]
    unfold writeSampleOf
    rw [hsi]
    simp only
    rw [hrd]
    simp only
    have hdf : decide (m.type = SAMPLE) = false := decide_eq_false hty
    rw [write_zeros (a := f.attr.sample) (s := infoSample i) (p := image (own m.type m.body)) hcs hr.type
      (by show Supported f.attr.sample (decide (m.type = SAMPLE)); rw [hdf]; exact hsup) hfit
      (by show has f.attr.sample (decide (m.type = SAMPLE)) 11 = true → _; rw [hdf]; intro h11; simp [has] at h11)
      (by show _ = _ ++ zeros (total (layout f.attr.sample (decide (m.type = SAMPLE)) (infoSample i))); rw [hdf, ← hf]) (half_dataSize hm hcs)]
    simp only [if_true, Option.some.injEq]
    unfold wire
    rw [image_append, hf]
    simp only [hdf]

theorem writeSample_wire {env : Env} {fs : List FileAttr} {ser : Ser} {f : FileAttr} {m : Msg} {s : SampleEvent}
    (hr : Recorded fs ser f m.body) (hm : MsgOk env f.attr.sample m) (hs : m.body = .sample s) :
    writeSampleOf ser (sampleOfMsg env ser s) (blank f.attr.sample m) = some (some (wire f.attr.sample m)) := by
  obtain ⟨hty, hf, hsup, hok, hid⟩ := recorded_sample hr hm hs
  obtain ⟨t, h1, h2, h3, h4, h5⟩ := sample_of_msg (env := env) hok hid
  have hown : own m.type m.body = [] := by rw [hs]; rfl
  have hcs : carriesSample m.type = true := by rw [hty]; decide
  have hdt : decide (m.type = SAMPLE) = true := decide_eq_true hty
  unfold writeSampleOf
  rw [h1]
  simp only
  rw [h2, hid]
  simp only
  have hb : blank f.attr.sample m = ⟨m.type, m.misc, image (own m.type m.body) ++ zeros (total (sampleFields f.attr.sample m.body))⟩ := by
    unfold blank; rw [hown]; simp [image, total]
  rw [hb, write_zeros (a := f.attr.sample) (s := t) (p := image (own m.type m.body)) hcs hr.type
      (by show Supported f.attr.sample (decide (m.type = SAMPLE)); rw [hdt]; exact hsup) h4
      (by
        show has f.attr.sample (decide (m.type = SAMPLE)) 11 = true → _
        intro h11
        have : f.attr.sample.sampleType.testBit 11 = true := by
          simp only [has, Bool.and_eq_true] at h11; exact h11.1
        rw [h5, hok.noHwIdx, if_pos this]; rfl)
      (by show _ = _ ++ zeros (total (layout f.attr.sample (decide (m.type = SAMPLE)) t)); rw [hdt, hf, h3]) (half_dataSize hm hcs)]
  simp only [if_true, Option.some.injEq]
  unfold wire
  rw [image_append, hf]
  simp only [hdt, h3]

/-! ## The events' own fields -/

theorem puts_cover {a : Sample.Attr} {m : Msg} {l : List (Nat × Bytes)} (h : Covers l 8 (own m.type m.body)) :
    puts l (blank a m).payload = some (image (own m.type m.body) ++ zeros (total (sampleFields a m.body))) := by
  have := h.puts (P := []) rfl (total (sampleFields a m.body))
  rw [List.nil_append, List.nil_append] at this
  exact this

theorem writePlain_wire {a : Sample.Attr} {m : Msg} {l : List (Nat × Bytes)} (h : Covers l 8 (own m.type m.body))
    (hs : sampleFields a m.body = []) : writePlain (blank a m) l = some (some (wire a m)) := by
  unfold writePlain
  rw [puts_cover h, hs]
  simp [wire, blank, hs, total]

/-- Zeros stored over zeros change nothing. -/
theorem puts_zeros {P : Bytes} {l : List (Nat × Bytes)} {off n k : Nat} (ho : off = 8 + P.length) (hn : n ≤ k) :
    puts ((off, zeros n) :: l) (P ++ zeros k) = puts l (P ++ zeros k) := by
  obtain ⟨j, rfl⟩ : ∃ j, k = n + j := ⟨k - n, by omega⟩
  have := puts_store (P := P) (d := zeros n) (l := l) (off := off) (k := j) ho
  rw [List.length_replicate] at this
  rw [this, zeros_add, List.append_assoc]

theorem toLE_one (n : Nat) : toLE 1 n = [UInt8.ofNat n] := rfl

/-- The build ID of a mapping. -/
theorem mmap2_middle {env : Env} {type misc : Nat} {m : MMap} (hb : BodyOk env type misc (.mmap m)) (hty : type = MMAP2) :
    ∃ mid, mmap2Middle m = some mid ∧ ∀ k, puts (mmap2Front m ++ mid ++ mmap2Back m) (zeros (total (own MMAP2 (.mmap m)) + k)) =
      some (image (own MMAP2 (.mmap m)) ++ zeros k) := by
  subst hty
  obtain ⟨-, -, -, -, -, ⟨hn, -⟩, h | ⟨-, -, -, -, h⟩⟩ := hb
  · exact absurd h.1 (by decide)
  unfold mmap2Middle
  have hback : Covers (mmap2Back m) 64 ([.u32 m.prot, .u32 m.flags] ++ text m.filename) :=
    Covers.app (l := [(64, toLE 4 m.prot), (68, toLE 4 m.flags)]) (Covers.same 64 [.u32 m.prot, .u32 m.flags]) (Covers.text hn)
  cases hid : m.buildId with
  | none =>
    refine ⟨_, rfl, fun k => ?_⟩
    have hc : Covers (mmap2Front m ++ [(40, toLE 4 m.maj), (44, toLE 4 m.min), (48, toLE 8 m.ino), (56, toLE 8 m.inoGeneration)] ++
        mmap2Back m) 8 (own MMAP2 (.mmap m)) := by
      simp only [own, hid, if_true]
      rw [List.append_assoc (_ ++ _) _ (text _)]
      exact Covers.app (Covers.app (Covers.same 8 [.u32 m.pid, .u32 m.tid, .u64 m.start, .u64 m.len, .u64 m.pgoff])
        (Covers.same 40 [.u32 m.maj, .u32 m.min, .u64 m.ino, .u64 m.inoGeneration])) hback
    simpa using hc.puts (P := []) rfl k
  | some h' =>
    rw [hid] at h
    obtain ⟨-, -, -, -, id, hl, rfl⟩ := h
    have hlen : (rawDataToHexString id).length = 2 * id.length := (C15_digits id).1
    simp only
    rw [C15_roundtrip id (List.replicate 20 0) 20 hl (by simp), hlen, show 2 * id.length / 2 = id.length by omega,
      if_pos ⟨by omega, hl, rfl⟩]
    refine ⟨_, rfl, fun k => ?_⟩
    rw [List.take_left]
    have hown : image (own MMAP2 (.mmap m)) = image ([.u32 m.pid, .u32 m.tid, .u64 m.start, .u64 m.len, .u64 m.pgoff] ++
        [.bytes [UInt8.ofNat id.length], .pad 3]) ++ (image ([.bytes id, .pad (20 - id.length)]) ++
        image ([.u32 m.prot, .u32 m.flags] ++ text m.filename)) := by
      simp only [own, hid, if_true, unhex_hex, buildIdFields, image_append, List.append_assoc]
      simp [image]
    have htot : total (own MMAP2 (.mmap m)) = 36 + (20 + total ([.u32 m.prot, .u32 m.flags] ++ text m.filename)) := by
      rw [← image_length, hown, List.length_append, List.length_append, image_length, image_length, image_length]
      simp only [total_append, total_cons, Piece.len, List.length_singleton]
      simp only [total, List.map_nil, List.sum_nil]
      omega
    have h1 : mmap2Front m ++ [(40, toLE 1 id.length), (44, List.replicate 20 0), (44, id)] ++ mmap2Back m =
        stores 8 ([.u32 m.pid, .u32 m.tid, .u64 m.start, .u64 m.len, .u64 m.pgoff] ++ [.bytes [UInt8.ofNat id.length], .pad 3]) ++
          ((44, zeros 20) :: (stores 44 [.bytes id, .pad (20 - id.length)] ++ mmap2Back m)) := rfl
    rw [h1, puts_append, htot, Nat.add_assoc]
    have h2 := puts_image ([.u32 m.pid, .u32 m.tid, .u64 m.start, .u64 m.len, .u64 m.pgoff] ++ [.bytes [UInt8.ofNat id.length], .pad 3])
      [] 8 (20 + total ([.u32 m.prot, .u32 m.flags] ++ text m.filename) + k) rfl
    rw [List.nil_append, List.nil_append] at h2
    rw [show (36 : Nat) = total ([.u32 m.pid, .u32 m.tid, .u64 m.start, .u64 m.len, .u64 m.pgoff] ++ [.bytes [UInt8.ofNat id.length], .pad 3]) from rfl,
      h2, Option.bind_some, puts_zeros (by rw [image_length]; rfl) (by omega)]
    have ht2 : total [Piece.bytes id, .pad (20 - id.length)] = 20 := by
      show id.length + (20 - id.length + 0) = 20; omega
    have h3 : Covers (stores 44 [.bytes id, .pad (20 - id.length)] ++ mmap2Back m) 44
        ([.bytes id, .pad (20 - id.length)] ++ ([.u32 m.prot, .u32 m.flags] ++ text m.filename)) :=
      Covers.app (Covers.same _ _) (by rw [ht2]; exact hback)
    have h4 := h3.puts (P := image ([.u32 m.pid, .u32 m.tid, .u64 m.start, .u64 m.len, .u64 m.pgoff] ++ [.bytes [UInt8.ofNat id.length], .pad 3]))
      (by rw [image_length]; rfl) k
    rw [total_append, ht2] at h4
    rw [h4, hown, image_append [Piece.bytes id, _]]

theorem covers_own {env : Env} {m : Msg} (hb : BodyOk env m.type m.misc m.body) : ∀ k : List (Nat × Bytes), (match m.body with
    | .none => k = []
    | .mmap x => m.type = MMAP ∧ k = mmapStores x
    | .sample _ => k = []
    | .comm x => k = commStores x
    | .fork x => k = forkStores x
    | .exit x => k = forkStores x
    | .lost x => k = [(8, toLE 8 x.id), (16, toLE 8 x.lost)]
    | .throttle x => k = [(8, toLE 8 x.time), (16, toLE 8 x.id), (24, toLE 8 x.streamId)]
    | .aux x => k = auxStores x
    | .itraceStart x => k = [(8, toLE 4 x.pid), (12, toLE 4 x.tid)]
    | .lostSamples x => k = [(8, toLE 8 x.lost)]
    | .switch x => k = if m.type = SWITCH_CPU_WIDE then [(8, toLE 4 x.pid), (12, toLE 4 x.tid)] else []
    | .namespaces x => k = namespacesStores x
    | .cgroup x => k = [(8, toLE 8 x.id), snprintf 16 4096 x.path]
    | .ksymbol x => k = ksymbolStores x
    | .bpf x => k = bpfStores x
    | .auxtraceInfo x => k = auxtraceInfoStores x
    | .auxtrace x => k = auxtraceStores x
    | .auxtraceError x => k = auxtraceErrorStores x
    | .idIndex x => k = idIndexStores x
    | .threadMap x => k = threadMapStores x
    | .statConfig x => k = statConfigStores x
    | .stat x => k = statStores x
    | .statRound a b => k = [(8, toLE 8 a), (16, toLE 8 b)]
    | .timeConv x => k = timeConvStores x) → Covers k 8 (own m.type m.body) := by
  obtain ⟨type, misc, size, body, stamp⟩ := m
  simp only at hb ⊢
  intro k hk
  cases body <;> simp only at hk <;> simp only [BodyOk] at hb
  case none => subst hk; exact Covers.same 8 []
  case mmap x =>
    obtain ⟨ht, rfl⟩ := hk
    subst ht
    exact Covers.app (Covers.same 8 [.u32 x.pid, .u32 x.tid, .u64 x.start, .u64 x.len, .u64 x.pgoff]) (Covers.text hb.2.2.2.2.2.1.1)
  case sample => subst hk; exact Covers.same 8 []
  case comm x =>
    subst hk
    exact Covers.app (Covers.same 8 [.u32 x.pid, .u32 x.tid]) (Covers.text hb.2.2.2.1)
  case fork x => subst hk; exact Covers.same 8 [.u32 x.pid, .u32 x.ppid, .u32 x.tid, .u32 x.ptid, .u64 x.time]
  case exit x => subst hk; exact Covers.same 8 [.u32 x.pid, .u32 x.ppid, .u32 x.tid, .u32 x.ptid, .u64 x.time]
  case lost x => subst hk; exact Covers.same 8 [.u64 x.id, .u64 x.lost]
  case throttle x => subst hk; exact Covers.same 8 [.u64 x.time, .u64 x.id, .u64 x.streamId]
  case aux x => subst hk; exact Covers.same 8 [.u64 x.offset, .u64 x.size, .u64 _]
  case itraceStart x => subst hk; exact Covers.same 8 [.u32 x.pid, .u32 x.tid]
  case lostSamples x => subst hk; exact Covers.same 8 [.u64 x.lost]
  case switch x =>
    subst hk
    unfold own
    split
    · exact Covers.same 8 [.u32 x.pid, .u32 x.tid]
    · exact Covers.same 8 []
  case namespaces x =>
    subst hk
    exact Covers.app (Covers.same 8 [.u32 x.pid, .u32 x.tid, .u64 x.links.length])
      (Covers.list0 (sz := 16) (fun i a _ => Covers.same (24 + 16 * i) [.u64 a.1, .u64 a.2]) (fun a _ => rfl))
  case cgroup x =>
    subst hk
    exact Covers.app (Covers.same 8 [.u64 x.id]) (Covers.text hb.2.2)
  case ksymbol x =>
    subst hk
    exact Covers.app (Covers.same 8 [.u64 x.addr, .u32 x.len, .u16 x.ksymType, .u16 x.flags]) (Covers.text hb.2.2.2.2.2)
  case bpf x =>
    subst hk
    obtain ⟨-, hn, hl, -⟩ := hb
    have ht : ∀ (n : Nat) (s : Bytes), s.length < n → total (array n s) = n := fun n s h => by
      show s.length + (n - s.length + 0) = n; omega
    refine Covers.app (l := [snprintf 8 512 x.progName, (520, toLE 8 x.metadata.length)])
      (Covers.app (l := [snprintf 8 512 x.progName]) (Covers.array hn) ?_) ?_
    · rw [ht _ _ hn.2]; exact Covers.same 520 [.u64 x.metadata.length]
    · rw [total_append, ht _ _ hn.2]
      refine Covers.list0 (sz := 320) (fun i a ha => ?_) (fun a ha => ?_)
      · exact Covers.app (l := [snprintf _ 64 a.1]) (Covers.array (hl a ha).1) (by rw [ht _ _ (hl a ha).1.2]; exact Covers.array (hl a ha).2)
      · rw [total_append, ht _ _ (hl a ha).1.2, ht _ _ (hl a ha).2.2]
  case auxtraceInfo x =>
    subst hk
    exact Covers.app (Covers.same 8 [.u32 x.type, .pad 4]) (Covers.list0 (sz := 8) (fun i a _ => Covers.same (16 + 8 * i) [.u64 a]) (fun a _ => rfl))
  case auxtrace x =>
    subst hk
    exact Covers.same 8 [.u64 x.size, .u64 x.offset, .u64 x.reference, .u32 x.idx, .u32 x.tid, .u32 x.cpu, .pad 4]
  case auxtraceError x =>
    subst hk
    exact Covers.app (Covers.same 8 [.u32 x.type, .u32 x.code, .u32 x.cpu, .u32 x.pid, .u32 x.tid, .pad 4, .u64 x.ip])
      (Covers.text hb.2.2.2.2.2.2.2.1)
  case idIndex x =>
    subst hk
    exact Covers.app (Covers.same 8 [.u64 x.length])
      (Covers.list0 (sz := 32) (fun i a _ => Covers.same (16 + 32 * i) [.u64 a.id, .u64 a.idx, .u64 a.cpu, .u64 a.tid]) (fun a _ => rfl))
  case threadMap x =>
    subst hk
    have ht : ∀ (n : Nat) (s : Bytes), s.length < n → total (array n s) = n := fun n s h => by
      show s.length + (n - s.length + 0) = n; omega
    refine Covers.app (Covers.same 8 [.u64 x.length]) (Covers.list0 (sz := 24) (fun i a ha => ?_) (fun a ha => ?_))
    · exact Covers.app (Covers.same (16 + 24 * i) [.u64 a.pid]) (Covers.array (hb.2 a ha).2.1)
    · rw [total_append, ht _ _ (hb.2 a ha).2.1.2]; rfl
  case statConfig x =>
    subst hk
    exact Covers.app (Covers.same 8 [.u64 x.length]) (Covers.list0 (sz := 16) (fun i a _ => Covers.same (16 + 16 * i) [.u64 a.1, .u64 a.2]) (fun a _ => rfl))
  case stat x =>
    subst hk
    exact Covers.same 8 [.u64 x.id, .u32 x.cpu, .u32 x.thread, .u64 x.value, .u64 x.enabled, .u64 x.running]
  case statRound a b => subst hk; exact Covers.same 8 [.u64 a, .u64 b]
  case timeConv x =>
    subst hk
    obtain ⟨sh, mu, ze, cy, ma, c1, c2⟩ := x
    cases cy with
    | none => exact Covers.same 8 [.u64 sh, .u64 mu, .u64 ze]
    | some c =>
      exact Covers.same 8 [.u64 sh, .u64 mu, .u64 ze, .u64 c, .u64 ma, .bytes [UInt8.ofNat c1.toNat], .bytes [UInt8.ofNat c2.toNat], .pad 6]

/-- A message is written as the event it describes. -/
theorem deserialize_wire {env : Env} {fs : List FileAttr} {ser : Ser} {f : FileAttr} {m : Msg}
    (hr : Recorded fs ser f m.body) (hm : MsgOk env f.attr.sample m) : deserialize env ser m = some (some (wire f.attr.sample m)) := by
  have hsz := hm.size
  have hlt := hm.fits
  have hws := wire_size f.attr.sample m
  have hes := eventSize_wire hr hm
  have hbs : (blank f.attr.sample m).size = m.size := by
    unfold RawEvent.size blank; simp only [List.length_replicate]; omega
  have h8 : 8 ≤ m.size := by omega
  unfold deserialize
  rw [if_neg (by omega), Nat.mod_eq_of_lt hm.misc,
    show (⟨m.type, m.misc, List.replicate (m.size - 8) 0⟩ : RawEvent) = blank f.attr.sample m by
      unfold blank
      rw [show m.size - 8 = total (own m.type m.body) + total (sampleFields f.attr.sample m.body) by omega]]
  have hc := covers_own hm.body
  have hw := fun i l hi (hl : Covers l 8 (own m.type m.body)) => writeInfo_wire (i := i) (l := l) hr hm hi (puts_cover hl)
  have hp := fun l (hl : Covers l 8 (own m.type m.body)) => writePlain_wire (a := f.attr.sample) (l := l) hl
  have hb := hm.body
  have hsw := fun s => writeSample_wire (s := s) hr hm
  have hgw := fun i l hi hl => writeInfo_wire (i := i) (l := l) hr hm hi hl
  generalize hB : blank f.attr.sample m = B at *
  obtain ⟨type, misc, size, body, stamp⟩ := m
  cases body <;> simp only [BodyOk] at hb
  case none =>
    subst hb
    rw [← hB]; rfl
  case mmap x =>
    obtain ⟨h1, h2, h3, h4, h5, h6, h7 | h7⟩ := hb
    · obtain ⟨rfl, -⟩ := h7
      exact hw _ _ rfl (hc _ ⟨rfl, rfl⟩)
    · obtain ⟨mid, e1, e2⟩ := mmap2_middle hm.body h7.1
      obtain ⟨rfl, -⟩ := h7
      show writeMMap2 ser B x = _
      unfold writeMMap2
      rw [e1]
      refine hgw _ _ rfl ?_
      rw [← hB]
      exact e2 _
  case sample s => subst hb; exact hsw s rfl
  case comm x =>
    obtain ⟨rfl, -⟩ := hb
    show writeComm env ser _ B = _
    unfold writeComm
    rw [hes]
    simp only
    have hBp : B.size = 8 + B.payload.length := rfl
    rw [← hsz]
    simp only at hlt hbs h8
    rw [if_neg (by simp only; omega), Nat.mod_eq_of_lt hlt, if_neg (by omega), List.take_of_length_le (by omega)]
    exact hw _ _ rfl (hc _ rfl)
  case throttle x =>
    obtain ⟨rfl | rfl, -⟩ := hb
    · exact hw _ _ rfl (hc _ rfl)
    · exact hw _ _ rfl (hc _ rfl)
  case switch x =>
    obtain ⟨-, ⟨rfl, -⟩ | ⟨rfl, -⟩⟩ := hb
    · exact hw _ _ rfl (hc _ rfl)
    · exact hw _ _ rfl (hc _ rfl)
  all_goals
    obtain ⟨rfl, -⟩ := hb
    first
      | exact hw _ _ rfl (hc _ rfl)
      | exact hp _ (hc _ rfl) rfl

end Verif.Serial
