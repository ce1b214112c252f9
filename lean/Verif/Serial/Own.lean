import Verif.Serial.Size

/-! Reading an event's own fields. -/

namespace Verif.Serial
open Verif.Buffer Verif.Event Verif.Sample Verif.Attr Verif.Util Verif.Text

variable {env : Env} {e : RawEvent} {rest : Bytes}

theorem pad_pos {s : Bytes} : 0 < 8 - s.length % 8 := by omega

theorem readMMap_image {m : MMap} (ht : e.type = MMAP) (hb : BodyOk env e.type e.misc (.mmap m))
    (hp : e.payload = image (own e.type (.mmap m)) ++ rest) : readMMap env e = some { m with info := {} } := by
  obtain ⟨h1, h2, h3, h4, h5, ⟨hn, f1, f2, f3⟩, hb⟩ := hb
  rw [ht] at hb hp
  rcases hb with ⟨-, a1, a2, a3, a4, a5, a6, a7⟩ | ⟨h, -⟩
  · have r1 : e.int 8 4 = some m.pid := u32_image (A := []) hp rfl h1
    have r2 : e.int 12 4 = some m.tid := u32_image (A := [.u32 m.pid]) hp rfl h2
    have r3 : e.int 16 8 = some m.start := u64_image (A := [.u32 m.pid, .u32 m.tid]) hp rfl h3
    have r4 : e.int 24 8 = some m.len := u64_image (A := [.u32 m.pid, .u32 m.tid, .u64 m.start]) hp rfl h4
    have r5 : e.int 32 8 = some m.pgoff := u64_image (A := [.u32 m.pid, .u32 m.tid, .u64 m.start, .u64 m.len]) hp rfl h5
    have r6 : cstr e 40 = some m.filename :=
      cstr_image (A := [.u32 m.pid, .u32 m.tid, .u64 m.start, .u64 m.len, .u64 m.pgoff]) (B := []) hp rfl pad_pos hn.1
    have hr : rootOf m.filename = m.rootPath := by
      rw [f2]; unfold rootOf setIf; by_cases h : rootPath m.filename = [] <;> simp [h]
    obtain ⟨pid, tid, start, len, pgoff, maj, min, ino, gen, prot, flags, bid, fn, fm, rp, rm, inf⟩ := m
    simp only at *
    simp [readMMap, r1, r2, r3, r4, r5, r6, hr, f1, f3, a1, a2, a3, a4, a5, a6, a7]
  · exact absurd h (by decide)

theorem readMMap2_image {m : MMap} (ht : e.type = MMAP2) (hb : BodyOk env e.type e.misc (.mmap m))
    (hp : e.payload = image (own e.type (.mmap m)) ++ rest) : readMMap2 env e = some (some { m with info := {} }) := by
  obtain ⟨h1, h2, h3, h4, h5, ⟨hn, f1, f2, f3⟩, hb⟩ := hb
  rw [ht] at hb hp
  rcases hb with ⟨h, -⟩ | ⟨-, h6, h7, hbid, hb⟩
  · exact absurd h (by decide)
  · have r1 : e.int 8 4 = some m.pid := u32_image (A := []) hp rfl h1
    have r2 : e.int 12 4 = some m.tid := u32_image (A := [.u32 m.pid]) hp rfl h2
    have r3 : e.int 16 8 = some m.start := u64_image (A := [.u32 m.pid, .u32 m.tid]) hp rfl h3
    have r4 : e.int 24 8 = some m.len := u64_image (A := [.u32 m.pid, .u32 m.tid, .u64 m.start]) hp rfl h4
    have r5 : e.int 32 8 = some m.pgoff := u64_image (A := [.u32 m.pid, .u32 m.tid, .u64 m.start, .u64 m.len]) hp rfl h5
    have hr : rootOf m.filename = m.rootPath := by
      rw [f2]; unfold rootOf setIf; by_cases h : rootPath m.filename = [] <;> simp [h]
    let F : List Piece := [.u32 m.pid, .u32 m.tid, .u64 m.start, .u64 m.len, .u64 m.pgoff]
    -- what follows the union
    have back : ∀ U : List Piece, total U = 24 → own MMAP2 (.mmap m) = F ++ U ++ [.u32 m.prot, .u32 m.flags] ++ text m.filename →
        e.int 64 4 = some m.prot ∧ e.int 68 4 = some m.flags ∧ cstr e 72 = some m.filename := by
      intro U hU hL
      have hF : total (F ++ U) = 56 := by rw [total_append, hU]; rfl
      rw [hL] at hp
      refine ⟨u32_image (A := F ++ U) (B := .u32 m.flags :: text m.filename) (rest := rest) (by rw [hp]; simp) (by rw [hF]) h6,
        u32_image (A := F ++ U ++ [.u32 m.prot]) (B := text m.filename) (rest := rest) (by rw [hp]; simp)
          (by rw [total_append, hF]; rfl) h7,
        cstr_image (A := F ++ U ++ [.u32 m.prot, .u32 m.flags]) (B := []) (k := 8 - m.filename.length % 8) (rest := rest)
          (by rw [hp]; simp [text]) (by rw [total_append, hF]; rfl) pad_pos hn.1⟩
    cases hbuild : m.buildId with
    | none =>
      rw [hbuild] at hb hbid
      obtain ⟨a1, a2, a3, a4⟩ := hb
      have hL : own MMAP2 (.mmap m) = F ++ [.u32 m.maj, .u32 m.min, .u64 m.ino, .u64 m.inoGeneration] ++
          [.u32 m.prot, .u32 m.flags] ++ text m.filename := by simp [own, hbuild, F]
      obtain ⟨b1, b2, b3⟩ := back _ rfl hL
      rw [hL] at hp
      have s1 : e.int 40 4 = some m.maj := u32_image (A := F) hp rfl a1
      have s2 : e.int 44 4 = some m.min := u32_image (A := F ++ [.u32 m.maj]) hp rfl a2
      have s3 : e.int 48 8 = some m.ino := u64_image (A := F ++ [.u32 m.maj, .u32 m.min]) hp rfl a3
      have s4 : e.int 56 8 = some m.inoGeneration := u64_image (A := F ++ [.u32 m.maj, .u32 m.min, .u64 m.ino]) hp rfl a4
      have hm : e.misc.testBit 14 = false := hbid.symm
      obtain ⟨pid, tid, start, len, pgoff, maj, min, ino, gen, prot, flags, bid, fn, fm, rp, rm, inf⟩ := m
      simp only at *
      simp [readMMap2, r1, r2, r3, r4, r5, hm, s1, s2, s3, s4, b1, b2, b3, hr, f1, f3, hbuild]
    | some h =>
      rw [hbuild] at hb hbid
      obtain ⟨a1, a2, a3, a4, id, hid, rfl⟩ := hb
      have hL : own MMAP2 (.mmap m) = F ++ buildIdFields id ++ [.u32 m.prot, .u32 m.flags] ++ text m.filename := by
        simp [own, hbuild, F, unhex_hex]
      obtain ⟨b1, b2, b3⟩ := back _ (total_buildId hid) hL
      rw [hL] at hp
      have s1 : e.int 40 1 = some id.length :=
        int_image (A := F) (p := .bytes [UInt8.ofNat id.length]) hp rfl rfl (by omega)
      have s2 : fetch e.payload 36 id.length = some id := by
        have hl : e.payload = image (F ++ [.bytes [UInt8.ofNat id.length], .pad 3]) ++ (id ++ (image ([.pad (20 - id.length)] ++
            [.u32 m.prot, .u32 m.flags] ++ text m.filename) ++ rest)) := by
          rw [hp]; simp [image, pieceBytes, buildIdFields]
        have h36 : (image (F ++ [.bytes [UInt8.ofNat id.length], .pad 3])).length = 36 := by rw [image_length]; rfl
        unfold fetch
        rw [if_pos (by rw [hl]; simp [h36]), hl, List.drop_append_of_le_length (by omega), List.drop_of_length_le (by omega)]
        simp
      have hm : e.misc.testBit 14 = true := hbid.symm
      have hgt : ¬ 20 < id.length := by omega
      obtain ⟨pid, tid, start, len, pgoff, maj, min, ino, gen, prot, flags, bid, fn, fm, rp, rm, inf⟩ := m
      simp only at *
      simp [readMMap2, r1, r2, r3, r4, r5, hm, s1, s2, hgt, b1, b2, b3, hr, f1, f3, hbuild, a1, a2, a3, a4]

theorem readComm_image {m : Comm} (ht : e.type = COMM) (hb : BodyOk env e.type e.misc (.comm m))
    (hp : e.payload = image (own e.type (.comm m)) ++ rest) : readComm env e = some { m with info := {} } := by
  obtain ⟨-, h1, h2, hn, h3⟩ := hb
  have r1 : e.int 8 4 = some m.pid := u32_image (A := []) hp rfl h1
  have r2 : e.int 12 4 = some m.tid := u32_image (A := [.u32 m.pid]) hp rfl h2
  have r3 : cstr e 16 = some m.comm := cstr_image (A := [.u32 m.pid, .u32 m.tid]) (B := []) hp rfl pad_pos hn.1
  simp [readComm, r1, r2, r3, h3]

theorem readFork_image {pid ppid tid ptid time : Nat} (h1 : pid < 2 ^ 32) (h2 : ppid < 2 ^ 32) (h3 : tid < 2 ^ 32)
    (h4 : ptid < 2 ^ 32) (h5 : time < 2 ^ 64)
    (hp : e.payload = image [.u32 pid, .u32 ppid, .u32 tid, .u32 ptid, .u64 time] ++ rest) :
    readFork e = some { pid := pid, ppid := ppid, tid := tid, ptid := ptid, time := time } := by
  have r1 : e.int 8 4 = some pid := u32_image (A := []) hp rfl h1
  have r2 : e.int 12 4 = some ppid := u32_image (A := [.u32 pid]) hp rfl h2
  have r3 : e.int 16 4 = some tid := u32_image (A := [.u32 pid, .u32 ppid]) hp rfl h3
  have r4 : e.int 20 4 = some ptid := u32_image (A := [.u32 pid, .u32 ppid, .u32 tid]) hp rfl h4
  have r5 : e.int 24 8 = some time := u64_image (A := [.u32 pid, .u32 ppid, .u32 tid, .u32 ptid]) hp rfl h5
  simp [readFork, r1, r2, r3, r4, r5]

theorem readLost_image {m : Lost} (hb : BodyOk env e.type e.misc (.lost m))
    (hp : e.payload = image (own e.type (.lost m)) ++ rest) : readLost e = some { m with info := {} } := by
  obtain ⟨-, h1, h2⟩ := hb
  have r1 : e.int 8 8 = some m.id := u64_image (A := []) hp rfl h1
  have r2 : e.int 16 8 = some m.lost := u64_image (A := [.u64 m.id]) hp rfl h2
  simp [readLost, r1, r2]

theorem readThrottle_image {m : Throttle} (hb : BodyOk env e.type e.misc (.throttle m))
    (hp : e.payload = image (own e.type (.throttle m)) ++ rest) : readThrottle e = some { m with info := {} } := by
  obtain ⟨-, h1, h2, h3⟩ := hb
  have r1 : e.int 8 8 = some m.time := u64_image (A := []) hp rfl h1
  have r2 : e.int 16 8 = some m.id := u64_image (A := [.u64 m.time]) hp rfl h2
  have r3 : e.int 24 8 = some m.streamId := u64_image (A := [.u64 m.time, .u64 m.id]) hp rfl h3
  simp [readThrottle, r1, r2, r3]

theorem aux_bits (a b c : Bool) : (a.toNat + 2 * b.toNat + 4 * c.toNat).testBit 0 = a ∧
    (a.toNat + 2 * b.toNat + 4 * c.toNat).testBit 1 = b ∧ (a.toNat + 2 * b.toNat + 4 * c.toNat).testBit 2 = c ∧
    a.toNat + 2 * b.toNat + 4 * c.toNat < 2 ^ 64 := by
  cases a <;> cases b <;> cases c <;> decide

theorem readAux_image {m : Aux} (hb : BodyOk env e.type e.misc (.aux m))
    (hp : e.payload = image (own e.type (.aux m)) ++ rest) : readAux e = some { m with info := {} } := by
  obtain ⟨-, h1, h2⟩ := hb
  obtain ⟨b0, b1, b2, h3⟩ := aux_bits m.truncated m.overwrite m.isPartial
  have r1 : e.int 8 8 = some m.offset := u64_image (A := []) hp rfl h1
  have r2 : e.int 16 8 = some m.size := u64_image (A := [.u64 m.offset]) hp rfl h2
  have r3 := u64_image (A := [.u64 m.offset, .u64 m.size]) (off := 24) hp rfl h3
  unfold readAux
  simp only [r1, r2, r3, Option.bind_eq_bind, Option.bind_some, b0, b1, b2]
  rfl

theorem readItraceStart_image {m : ItraceStart} (hb : BodyOk env e.type e.misc (.itraceStart m))
    (hp : e.payload = image (own e.type (.itraceStart m)) ++ rest) : readItraceStart e = some { m with info := {} } := by
  obtain ⟨-, h1, h2⟩ := hb
  have r1 : e.int 8 4 = some m.pid := u32_image (A := []) hp rfl h1
  have r2 : e.int 12 4 = some m.tid := u32_image (A := [.u32 m.pid]) hp rfl h2
  simp [readItraceStart, r1, r2]

theorem readLostSamples_image {m : LostSamples} (hb : BodyOk env e.type e.misc (.lostSamples m))
    (hp : e.payload = image (own e.type (.lostSamples m)) ++ rest) : readLostSamples e = some { m with info := {} } := by
  obtain ⟨-, h1⟩ := hb
  have r1 : e.int 8 8 = some m.lost := u64_image (A := []) hp rfl h1
  simp [readLostSamples, r1]

theorem readSwitch_image {m : Switch} (hb : BodyOk env e.type e.misc (.switch m))
    (hp : e.payload = image (own e.type (.switch m)) ++ rest) : readSwitch e = some { m with info := {} } := by
  obtain ⟨h0, ⟨h, h1, h2⟩ | ⟨h, h1, h2⟩⟩ := hb
  · unfold readSwitch
    rw [h, if_neg (by decide), ← h0]
    obtain ⟨o, p, t, i⟩ := m
    simp only at h1 h2
    subst h1 h2
    rfl
  · rw [h] at hp
    have r1 : e.int 8 4 = some m.pid := u32_image (A := []) hp rfl h1
    have r2 : e.int 12 4 = some m.tid := u32_image (A := [.u32 m.pid]) hp rfl h2
    simp [readSwitch, h, r1, r2, h0]

theorem pairs_image {A : List Piece} {l : List (Nat × Nat)} {off : Nat} (hl : ∀ x ∈ l, x.1 < 2 ^ 64 ∧ x.2 < 2 ^ 64)
    (hp : e.payload = image (A ++ l.flatMap (fun x => [.u64 x.1, .u64 x.2]) ++ []) ++ rest) (ho : off = 8 + total A) :
    entries (fun i => do
      let tag ← e.int (off + 16 * i) 8
      let val ← e.int (off + 16 * i + 8) 8
      pure (tag, val)) 0 l.length = some l := by
  refine entries_eq rfl fun pre x post h => ?_
  have h1 := entry_image hp h
  have hpre : total (pre.flatMap fun x => [Piece.u64 x.1, .u64 x.2]) = 16 * pre.length := total_flatMap pre fun _ _ => rfl
  have hx := hl x (by rw [h]; simp)
  have r1 : e.int (off + 16 * pre.length) 8 = some x.1 := u64_image h1 (by rw [total_append, hpre]; omega) hx.1
  have r2 : e.int (off + 16 * pre.length + 8) 8 = some x.2 :=
    u64_image (A := (A ++ pre.flatMap fun x => [Piece.u64 x.1, .u64 x.2]) ++ [.u64 x.1])
      (B := post.flatMap (fun x => [.u64 x.1, .u64 x.2]) ++ []) (rest := rest) (by rw [h1]; simp)
      (by rw [total_append, total_append, hpre]; show _ = 8 + (total A + _ + 8); omega) hx.2
  simp [r1, r2]

theorem readNamespaces_image {m : Namespaces} (hb : BodyOk env e.type e.misc (.namespaces m)) (hlen : m.links.length < 2 ^ 64)
    (hp : e.payload = image (own e.type (.namespaces m)) ++ rest) : readNamespaces e = some { m with info := {} } := by
  obtain ⟨-, h1, h2, hl⟩ := hb
  have r1 : e.int 8 4 = some m.pid := u32_image (A := []) hp rfl h1
  have r2 : e.int 12 4 = some m.tid := u32_image (A := [.u32 m.pid]) hp rfl h2
  have r3 : e.int 16 8 = some m.links.length := u64_image (A := [.u32 m.pid, .u32 m.tid]) hp rfl hlen
  have r4 := pairs_image (A := [.u32 m.pid, .u32 m.tid, .u64 m.links.length]) (off := 24) hl (e := e) (rest := rest)
    (by rw [hp]; simp [own]) rfl
  unfold readNamespaces
  simp only [r1, r2, r3, Option.bind_eq_bind, Option.bind_some]
  simp only [Option.bind_eq_bind] at r4
  rw [r4]
  rfl

theorem readCgroup_image {m : Cgroup} (hb : BodyOk env e.type e.misc (.cgroup m))
    (hp : e.payload = image (own e.type (.cgroup m)) ++ rest) : readCgroup e = some { m with info := {} } := by
  obtain ⟨-, h1, hn⟩ := hb
  have r1 : e.int 8 8 = some m.id := u64_image (A := []) hp rfl h1
  have r2 : cstr e 16 = some m.path := cstr_image (A := [.u64 m.id]) (B := []) hp rfl pad_pos hn.1
  simp [readCgroup, r1, r2]

theorem readKsymbol_image {m : Ksymbol} (hb : BodyOk env e.type e.misc (.ksymbol m))
    (hp : e.payload = image (own e.type (.ksymbol m)) ++ rest) : readKsymbol e = some { m with info := {} } := by
  obtain ⟨-, h1, h2, h3, h4, hn⟩ := hb
  have r1 : e.int 8 8 = some m.addr := u64_image (A := []) hp rfl h1
  have r2 : e.int 16 4 = some m.len := u32_image (A := [.u64 m.addr]) hp rfl h2
  have r3 : e.int 20 2 = some m.ksymType := u16_image (A := [.u64 m.addr, .u32 m.len]) hp rfl h3
  have r4 : e.int 22 2 = some m.flags := u16_image (A := [.u64 m.addr, .u32 m.len, .u16 m.ksymType]) hp rfl h4
  have r5 : cstr e 24 = some m.name :=
    cstr_image (A := [.u64 m.addr, .u32 m.len, .u16 m.ksymType, .u16 m.flags]) (B := []) hp rfl pad_pos hn.1
  simp [readKsymbol, r1, r2, r3, r4, r5]

theorem cut_name {max : Nat} {s : Bytes} (h : Name max s) : cut max s = s := List.take_of_length_le (by have := h.2; omega)

theorem insert_all : ∀ (l acc : List (Bytes × Bytes)), (acc ++ l).Pairwise (fun x y => x.1 ≠ y.1) →
    l.foldl insertNew acc = acc ++ l
  | [], acc, _ => by simp
  | x :: l, acc, h => by
    have hx : ¬ acc.any (fun q => q.1 == x.1) = true := by
      simp only [List.any_eq_true, beq_iff_eq, not_exists, not_and]
      intro q hq
      rw [List.pairwise_append] at h
      exact h.2.2 q hq x (by simp)
    rw [List.foldl_cons, insertNew, if_neg hx, insert_all l (acc ++ [x]) (by simpa using h)]
    simp

theorem readBpf_image {m : Bpf} (hb : BodyOk env e.type e.misc (.bpf m)) (hlen : m.metadata.length < 2 ^ 64)
    (hp : e.payload = image (own e.type (.bpf m)) ++ rest) : readBpf env e = some { m with info := {} } := by
  obtain ⟨-, hn, hm, hd, ho⟩ := hb
  have ha : total (array 512 m.progName) = 512 := total_array (by have := hn.2; omega)
  have r1 : cstr e 8 = some m.progName :=
    cstr_image (A := []) (k := 512 - m.progName.length) (rest := rest)
      (B := [.u64 m.metadata.length] ++ m.metadata.flatMap fun x => array 64 x.1 ++ array 256 x.2) (by rw [hp]; simp [own, array]) rfl
      (by have := hn.2; omega) hn.1
  have r2 : e.int 520 8 = some m.metadata.length :=
    u64_image (A := array 512 m.progName) (rest := rest) (B := m.metadata.flatMap fun x => array 64 x.1 ++ array 256 x.2)
      (by rw [hp]; simp [own]) (by rw [ha]) hlen
  have r3 : entries (fun i => do
      let key ← cstr e (528 + 320 * i)
      let value ← cstr e (528 + 320 * i + 64)
      pure (cut 64 key, cut 256 value)) 0 m.metadata.length = some m.metadata := by
    have hA : total (array 512 m.progName ++ [.u64 m.metadata.length]) = 520 := by rw [total_append, ha]; rfl
    have ht : ∀ x ∈ m.metadata, total (array 64 x.1 ++ array 256 x.2) = 320 := fun x hx => by
      rw [total_append, total_array (by have := (hm x hx).1.2; omega), total_array (by have := (hm x hx).2.2; omega)]
    refine entries_eq rfl fun pre x post h => ?_
    have h1 := entry_image (A := array 512 m.progName ++ [.u64 m.metadata.length]) (B := []) (rest := rest)
      (g := fun x => array 64 x.1 ++ array 256 x.2) (by rw [hp]; simp [own]) h
    have hpre : total (pre.flatMap fun x => array 64 x.1 ++ array 256 x.2) = 320 * pre.length :=
      total_flatMap pre fun y hy => ht y (by rw [h]; simp [hy])
    have hx := hm x (by rw [h]; simp)
    have s1 : cstr e (528 + 320 * pre.length) = some x.1 :=
      cstr_image (A := array 512 m.progName ++ [.u64 m.metadata.length] ++ pre.flatMap fun x => array 64 x.1 ++ array 256 x.2)
        (k := 64 - x.1.length) (rest := rest)
        (B := array 256 x.2 ++ (post.flatMap (fun x => array 64 x.1 ++ array 256 x.2) ++ [])) (by rw [h1]; simp [array])
        (by rw [total_append, hA, hpre]; omega) (by have := hx.1.2; omega) hx.1.1
    have s2 : cstr e (528 + 320 * pre.length + 64) = some x.2 :=
      cstr_image (A := (array 512 m.progName ++ [.u64 m.metadata.length] ++ pre.flatMap fun x => array 64 x.1 ++ array 256 x.2) ++
          array 64 x.1)
        (k := 256 - x.2.length) (rest := rest)
        (B := (post.flatMap (fun x => array 64 x.1 ++ array 256 x.2) ++ [])) (by rw [h1]; simp [array])
        (by rw [total_append, total_append, hA, hpre, total_array (by have := hx.1.2; omega)]; omega)
        (by have := hx.2.2; omega) hx.2.1
    simp [s1, s2, cut_name hx.1, cut_name hx.2]
  unfold readBpf
  simp only [r1, r2, Option.bind_eq_bind, Option.bind_some]
  simp only [Option.bind_eq_bind] at r3
  rw [r3, cut_name hn]
  simp only [Option.bind_some]
  rw [insert_all _ [] (by simpa using hd), List.nil_append, ho]
  rfl

theorem readAuxtraceInfo_image {m : AuxtraceInfo} (hb : BodyOk env e.type e.misc (.auxtraceInfo m)) (hok : e.Ok)
    (hp : e.payload = image (own e.type (.auxtraceInfo m))) : readAuxtraceInfo e = some m := by
  obtain ⟨-, h1, hl⟩ := hb
  have hok' : e.size < 2 ^ 16 := hok
  have ht : total (m.priv.flatMap fun x => [Piece.u64 x]) = 8 * m.priv.length := total_flatMap _ fun _ _ => rfl
  have hsz : e.size = 16 + 8 * m.priv.length := by
    unfold RawEvent.size
    rw [hp, image_length]
    simp only [own, total_append, ht]; simp [total, Piece.len]; omega
  have hp' : e.payload = image ([.u32 m.type, .pad 4] ++ m.priv.flatMap (fun x => [.u64 x]) ++ []) ++ [] := by rw [hp]; simp [own]
  have r1 : e.int 8 4 = some m.type := u32_image (A := []) hp' rfl h1
  have r2 : entries (fun i => e.int (16 + 8 * i) 8) 0 m.priv.length = some m.priv := by
    refine entries_eq rfl fun pre x post h => ?_
    have h1 := entry_image hp' h
    have hpre : total (pre.flatMap fun x => [Piece.u64 x]) = 8 * pre.length := total_flatMap pre fun _ _ => rfl
    exact u64_image h1 (by rw [total_append, hpre]; simp [total, Piece.len]; omega) (hl x (by rw [h]; simp))
  unfold readAuxtraceInfo
  rw [show (e.size + 2 ^ 64 - 16) % 2 ^ 64 / 8 = m.priv.length by omega]
  simp [r1, r2]

theorem readAuxtrace_image {m : Auxtrace} (hb : BodyOk env e.type e.misc (.auxtrace m))
    (hp : e.payload = image (own e.type (.auxtrace m)) ++ rest) : readAuxtrace e = some m := by
  obtain ⟨-, h1, h2, h3, h4, h5, h6, h7⟩ := hb
  have r1 : e.int 8 8 = some m.size := u64_image (A := []) hp rfl h1
  have r2 : e.int 16 8 = some m.offset := u64_image (A := [.u64 m.size]) hp rfl h2
  have r3 : e.int 24 8 = some m.reference := u64_image (A := [.u64 m.size, .u64 m.offset]) hp rfl h3
  have r4 : e.int 32 4 = some m.idx := u32_image (A := [.u64 m.size, .u64 m.offset, .u64 m.reference]) hp rfl h4
  have r5 : e.int 36 4 = some m.tid := u32_image (A := [.u64 m.size, .u64 m.offset, .u64 m.reference, .u32 m.idx]) hp rfl h5
  have r6 : e.int 40 4 = some m.cpu :=
    u32_image (A := [.u64 m.size, .u64 m.offset, .u64 m.reference, .u32 m.idx, .u32 m.tid]) hp rfl h6
  obtain ⟨a, b, c, d, f, g, t⟩ := m
  simp only at h7
  subst h7
  simp [readAuxtrace, r1, r2, r3, r4, r5, r6]

theorem readAuxtraceError_image {m : AuxtraceError} (hb : BodyOk env e.type e.misc (.auxtraceError m)) (hok : e.Ok)
    (hp : e.payload = image (own e.type (.auxtraceError m))) : readAuxtraceError env e = some m := by
  obtain ⟨-, h1, h2, h3, h4, h5, h6, hn, h7⟩ := hb
  have hok' : e.size < 2 ^ 16 := hok
  let F : List Piece := [.u32 m.type, .u32 m.code, .u32 m.cpu, .u32 m.pid, .u32 m.tid, .pad 4, .u64 m.ip]
  have hp' : e.payload = image (F ++ text m.msg) ++ [] := by rw [hp]; simp [own, F]
  have hsz : e.size = 40 + total (text m.msg) := by
    unfold RawEvent.size
    rw [hp', List.append_nil, image_length, total_append]; simp [F, total, Piece.len]; omega
  rw [total_text] at hsz
  have := hn.2
  have r1 : e.int 8 4 = some m.type := u32_image (A := []) hp' rfl h1
  have r2 : e.int 12 4 = some m.code := u32_image (A := [.u32 m.type]) hp' rfl h2
  have r3 : e.int 16 4 = some m.cpu := u32_image (A := [.u32 m.type, .u32 m.code]) hp' rfl h3
  have r4 : e.int 20 4 = some m.pid := u32_image (A := [.u32 m.type, .u32 m.code, .u32 m.cpu]) hp' rfl h4
  have r5 : e.int 24 4 = some m.tid := u32_image (A := [.u32 m.type, .u32 m.code, .u32 m.cpu, .u32 m.pid]) hp' rfl h5
  have r6 : e.int 32 8 = some m.ip :=
    u64_image (A := [.u32 m.type, .u32 m.code, .u32 m.cpu, .u32 m.pid, .u32 m.tid, .pad 4]) hp' rfl h6
  have hmax : (e.size + 2 ^ 64 - 40) % 2 ^ 64 = e.size - 40 := by omega
  have r7 : strnlen e 40 (min 64 (e.size - 40)) = some m.msg.length :=
    strnlen_image (A := F) (B := []) hp' rfl pad_pos hn.1 (by omega) (by omega)
  have r8 : fetch e.payload 32 m.msg.length = some m.msg := by
    have hl : e.payload = image F ++ (m.msg ++ zeros (8 - m.msg.length % 8)) := by
      rw [hp']; simp [text, image, pieceBytes, zeros]
    have h32 : (image F).length = 32 := by rw [image_length]; rfl
    unfold fetch
    rw [if_pos (by rw [hl]; simp [h32]), hl, List.drop_append_of_le_length (by omega), List.drop_of_length_le (by omega)]
    simp
  unfold readAuxtraceError
  rw [hmax]
  simp only [r1, r2, r3, r4, r5, r6, r7, r8, Option.bind_eq_bind, Option.bind_some, ← h7]
  rfl

theorem readIdIndex_image {l : List IdEntry} (hb : BodyOk env e.type e.misc (.idIndex l)) (hlen : l.length < 2 ^ 64)
    (hp : e.payload = image (own e.type (.idIndex l)) ++ rest) : readIdIndex e = some l := by
  obtain ⟨-, hl⟩ := hb
  have r1 : e.int 8 8 = some l.length := u64_image (A := []) hp rfl hlen
  unfold readIdIndex
  rw [r1]
  simp only [Option.bind_eq_bind, Option.bind_some]
  refine entries_eq rfl fun pre x post h => ?_
  let g : IdEntry → List Piece := fun x => [.u64 x.id, .u64 x.idx, .u64 x.cpu, .u64 x.tid]
  have h1 := entry_image (A := [.u64 l.length]) (B := []) (g := g) (rest := rest) (by rw [hp]; simp [own, g]) h
  have hpre : total (pre.flatMap g) = 32 * pre.length := total_flatMap pre fun _ _ => rfl
  obtain ⟨x1, x2, x3, x4⟩ := hl x (by rw [h]; simp)
  have hA : ∀ T : List Piece, 8 + total (([Piece.u64 l.length] ++ pre.flatMap g) ++ T) = 16 + 32 * pre.length + total T := fun T => by
    rw [total_append, total_append, hpre]; show 8 + (8 + _ + _) = _; omega
  have r1 : e.int (16 + 32 * pre.length) 8 = some x.id :=
    u64_image h1 (by have := hA []; simpa [total] using this.symm) x1
  have r2 : e.int (16 + 32 * pre.length + 8) 8 = some x.idx :=
    u64_image (A := ([Piece.u64 l.length] ++ pre.flatMap g) ++ [.u64 x.id]) (B := .u64 x.cpu :: .u64 x.tid :: (post.flatMap g ++ []))
      (rest := rest) (by rw [h1]; simp [g]) (by rw [hA]; rfl) x2
  have r3 : e.int (16 + 32 * pre.length + 16) 8 = some x.cpu :=
    u64_image (A := ([Piece.u64 l.length] ++ pre.flatMap g) ++ [.u64 x.id, .u64 x.idx]) (B := .u64 x.tid :: (post.flatMap g ++ []))
      (rest := rest) (by rw [h1]; simp [g]) (by rw [hA]; rfl) x3
  have r4 : e.int (16 + 32 * pre.length + 24) 8 = some x.tid :=
    u64_image (A := ([Piece.u64 l.length] ++ pre.flatMap g) ++ [.u64 x.id, .u64 x.idx, .u64 x.cpu]) (B := post.flatMap g ++ [])
      (rest := rest) (by rw [h1]; simp [g]) (by rw [hA]; rfl) x4
  simp [r1, r2, r3, r4]

theorem readThreadMap_image {l : List ThreadEntry} (hb : BodyOk env e.type e.misc (.threadMap l)) (hlen : l.length < 2 ^ 64)
    (hp : e.payload = image (own e.type (.threadMap l)) ++ rest) : readThreadMap env e = some l := by
  obtain ⟨-, hl⟩ := hb
  have r1 : e.int 8 8 = some l.length := u64_image (A := []) hp rfl hlen
  unfold readThreadMap
  rw [r1]
  simp only [Option.bind_eq_bind, Option.bind_some]
  refine entries_eq rfl fun pre x post h => ?_
  let g : ThreadEntry → List Piece := fun x => [.u64 x.pid] ++ array 16 x.comm
  have h1 := entry_image (A := [.u64 l.length]) (B := []) (g := g) (rest := rest) (by rw [hp]; simp [own, g]) h
  have hpre : total (pre.flatMap g) = 24 * pre.length := total_flatMap pre fun y hy => by
    have := (hl y (by rw [h]; simp [hy])).2.1.2
    simp only [g]; rw [total_append, total_array (by omega)]; rfl
  obtain ⟨x1, x2, x3⟩ := hl x (by rw [h]; simp)
  have r1 : e.int (16 + 24 * pre.length) 8 = some x.pid :=
    u64_image h1 (by rw [total_append, hpre]; simp [total, Piece.len]; omega) x1
  have r2 : cstr e (16 + 24 * pre.length + 8) = some x.comm :=
    cstr_image (A := ([Piece.u64 l.length] ++ pre.flatMap g) ++ [.u64 x.pid]) (k := 16 - x.comm.length) (B := post.flatMap g ++ [])
      (rest := rest) (by rw [h1]; simp [g, array]) (by rw [total_append, total_append, hpre]; simp [total, Piece.len]; omega)
      (by have := x2.2; omega) x2.1
  simp [r1, r2, ← x3]

theorem readStatConfig_image {l : List (Nat × Nat)} (hb : BodyOk env e.type e.misc (.statConfig l)) (hlen : l.length < 2 ^ 64)
    (hp : e.payload = image (own e.type (.statConfig l)) ++ rest) : readStatConfig e = some l := by
  obtain ⟨-, hl⟩ := hb
  have r1 : e.int 8 8 = some l.length := u64_image (A := []) hp rfl hlen
  unfold readStatConfig
  rw [r1]
  exact pairs_image (A := [.u64 l.length]) (off := 16) (rest := rest) hl (by rw [hp]; simp [own]) rfl

theorem readStat_image {m : Stat} (hb : BodyOk env e.type e.misc (.stat m))
    (hp : e.payload = image (own e.type (.stat m)) ++ rest) : readStat e = some m := by
  obtain ⟨-, h1, h2, h3, h4, h5, h6⟩ := hb
  have r1 : e.int 8 8 = some m.id := u64_image (A := []) hp rfl h1
  have r2 : e.int 16 4 = some m.cpu := u32_image (A := [.u64 m.id]) hp rfl h2
  have r3 : e.int 20 4 = some m.thread := u32_image (A := [.u64 m.id, .u32 m.cpu]) hp rfl h3
  have r4 : e.int 24 8 = some m.value := u64_image (A := [.u64 m.id, .u32 m.cpu, .u32 m.thread]) hp rfl h4
  have r5 : e.int 32 8 = some m.enabled := u64_image (A := [.u64 m.id, .u32 m.cpu, .u32 m.thread, .u64 m.value]) hp rfl h5
  have r6 : e.int 40 8 = some m.running :=
    u64_image (A := [.u64 m.id, .u32 m.cpu, .u32 m.thread, .u64 m.value, .u64 m.enabled]) hp rfl h6
  simp [readStat, r1, r2, r3, r4, r5, r6]

theorem readTimeConv_image {m : TimeConv} (hb : BodyOk env e.type e.misc (.timeConv m))
    (hp : e.payload = image (own e.type (.timeConv m))) : readTimeConv e = some m := by
  obtain ⟨-, h1, h2, h3, h4, h5, h6⟩ := hb
  have hsz : e.size = 8 + total (own e.type (.timeConv m)) := by unfold RawEvent.size; rw [hp, image_length]
  cases hc : m.cycles with
  | none =>
    have hL : own e.type (.timeConv m) = [.u64 m.shift, .u64 m.mult, .u64 m.zero] := by simp only [own, hc, List.append_nil]
    rw [hL] at hp hsz
    have hp' : e.payload = image [.u64 m.shift, .u64 m.mult, .u64 m.zero] ++ [] := by rw [hp, List.append_nil]
    have r1 : e.int 8 8 = some m.shift := u64_image (A := []) hp' rfl h1
    have r2 : e.int 16 8 = some m.mult := u64_image (A := [.u64 m.shift]) hp' rfl h2
    have r3 : e.int 24 8 = some m.zero := u64_image (A := [.u64 m.shift, .u64 m.mult]) hp' rfl h3
    have hne : ¬ e.size = 56 := by rw [hsz]; simp [total, Piece.len]
    obtain ⟨a1, a2, a3⟩ := h6 hc
    obtain ⟨sh, mu, ze, cy, ma, cz, cs⟩ := m
    simp only at *
    simp [readTimeConv, r1, r2, r3, hne, hc, a1, a2, a3]
  | some c =>
    let F : List Piece := [.u64 m.shift, .u64 m.mult, .u64 m.zero]
    have hL : own e.type (.timeConv m) = F ++ [.u64 c, .u64 m.mask, .bytes [UInt8.ofNat m.capZero.toNat],
      .bytes [UInt8.ofNat m.capShort.toNat], .pad 6] := by simp only [own, hc]; rfl
    rw [hL] at hp hsz
    rw [← List.append_nil (image _)] at hp
    have r1 : e.int 8 8 = some m.shift := u64_image (A := []) hp rfl h1
    have r2 : e.int 16 8 = some m.mult := u64_image (A := [.u64 m.shift]) hp rfl h2
    have r3 : e.int 24 8 = some m.zero := u64_image (A := [.u64 m.shift, .u64 m.mult]) hp rfl h3
    have r4 : e.int 32 8 = some c := u64_image (A := F) hp rfl (h5 c hc)
    have r5 : e.int 40 8 = some m.mask := u64_image (A := F ++ [.u64 c]) hp rfl h4
    have r6 : e.int 48 1 = some m.capZero.toNat :=
      int_image (A := F ++ [.u64 c, .u64 m.mask]) (p := .bytes [UInt8.ofNat m.capZero.toNat]) hp rfl rfl (by cases m.capZero <;> decide)
    have r7 : e.int 49 1 = some m.capShort.toNat :=
      int_image (A := F ++ [.u64 c, .u64 m.mask, .bytes [UInt8.ofNat m.capZero.toNat]]) (p := .bytes [UInt8.ofNat m.capShort.toNat])
        hp rfl rfl (by cases m.capShort <;> decide)
    have hne : e.size = 56 := by rw [hsz]; rfl
    have hz : ∀ b : Bool, decide (b.toNat ≠ 0) = b := by decide
    unfold readTimeConv
    simp only [r1, r2, r3, r4, r5, r6, r7, hne, Option.bind_eq_bind, Option.bind_some, if_true, hz]
    rw [← hc]
    rfl

end Verif.Serial
