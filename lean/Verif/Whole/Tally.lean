import Verif.Whole.TallySpec
import Verif.Whole.Kind

/-! What the parser counts, in the words of the specification. -/

namespace Verif.Whole
open Verif.Serial (Msg)
open Verif.Parser (Ev Opts hist rangesOf region requestAt isMmap isKernelMmap inherit kernelPid)
open Verif.HugePages (add64 sub64)
open Verif.AddressMapper (Req Piece specRun specStep)

/-! ## Pieces -/

/-- The addresses of a piece. -/
def ends (p : Piece) : Nat × Nat := (p.lo, p.lo + p.len)

/-- The pieces that are left when all requests are accepted. -/
def live (rs : List Req) : List Piece := rs.foldl (fun ps q => ps.flatMap (fun p => p.under q) ++ [q.piece]) []

theorem live_run {al : Nat} : ∀ {rs : List Req} {ps : List Piece}, (∀ b ∈ (specRun al ps rs).1, b = true) →
    (specRun al ps rs).2 = rs.foldl (fun ps q => ps.flatMap (fun p => p.under q) ++ [q.piece]) ps
  | [], _, _ => rfl
  | q :: rs, ps, h => by
    rw [specRun] at h ⊢
    have h1 := h _ List.mem_cons_self
    have h2 : (specStep al ps q).2 = ps.flatMap (fun p => p.under q) ++ [q.piece] := by
      unfold specStep at h1 ⊢
      split at h1
      · cases h1
      · split at h1
        · cases h1
        · rename_i a b
          rw [if_neg a, if_neg b]
    rw [List.foldl_cons, ← h2]
    exact live_run fun b hb => h b (List.mem_cons_of_mem _ hb)

theorem under_left (q : Req) (p : Piece) : (p.under q).map ends = left (q.real, q.real + q.size) (ends p) := by
  unfold Piece.under left ends Piece.encloses
  simp only
  have e1 : q.real + q.size - q.real = q.size := by omega
  have e2 : p.lo + p.len - p.lo = p.len := by omega
  rw [e1, e2]
  split
  · rfl
  · simp only [decide_eq_true_eq]
    split
    · rename_i h1 h2
      rw [List.map_append]
      congr 1
      · split
        · simp only [List.map_cons, List.map_nil]; congr 2; omega
        · rfl
      · split
        · simp only [List.map_cons, List.map_nil]; congr 2; omega
        · rfl
    · rfl

theorem live_snoc (rs : List Req) (q : Req) :
    (live (rs ++ [q])).map ends = ((live rs).map ends).flatMap (left (q.real, q.real + q.size)) ++ [(q.real, q.real + q.size)] := by
  unfold live
  rw [List.foldl_append, List.foldl_cons, List.foldl_nil, List.map_append, List.flatMap_map, List.map_flatMap]
  congr 1
  congr 1
  funext p
  exact under_left q p

/-! ## Histories -/

/-- An event as the parser sees it. -/
def viewed (x : Msg × Nat) : Ev := parserView x.2 x.1

theorem views_zip {α : Type} (f : Nat → Msg → α) : ∀ (n : Nat) (l : List Msg), views f n l = (l.zipIdx n).map (fun x => f x.2 x.1)
  | _, [] => rfl
  | n, m :: l => by rw [views, List.zipIdx_cons, List.map_cons, views_zip f (n + 1) l]

/-- The body of a record belongs to its type. -/
def BodyClass (type : Nat) : Serial.Body → Prop
  | .sample _ => type = 9
  | .mmap _ => type = 1 ∨ type = 10
  | .comm _ => type = 3
  | .exit _ => type = 4
  | .fork _ => type = 7
  | .ksymbol _ => type = 17
  | _ => type ∉ [1, 3, 4, 7, 9, 10, 17]

abbrev Class (m : Msg) : Prop := BodyClass m.type m.body

theorem Kind.cls {m : Msg} (h : Kind m) : Class m := by
  obtain ⟨type, misc, size, body, time⟩ := m
  cases body <;> first | exact h | exact h.imp And.left And.left

/-- What is needed of a record. -/
structure Plain (m : Msg) : Prop where
  kind : Class m
  range : ∀ b, m.body = .mmap b → b.start + b.len < 2 ^ 64 ∧ b.pgoff < 2 ^ 64

/-- One step of the history, by the kind of the record. -/
theorem hist_body {O : Opts} {x : Msg × Nat} (hx : Class x.1) (H : List Ev) :
    hist O (viewed x :: H) = match x.1.body with
      | .sample s => inherit (hist O H) (s.pid.getD 0) kernelPid
      | .mmap b => fun y => if y = b.pid then (inherit (hist O H) b.pid kernelPid b.pid).map (· ++ [requestAt O H (viewed x)]) else hist O H y
      | .fork f => if f.ppid = f.pid then hist O H else inherit (hist O H) f.pid f.ppid
      | .comm c => inherit (hist O H) c.pid kernelPid
      | _ => hist O H := by
  obtain ⟨⟨type, misc, size, body, time⟩, i⟩ := x
  unfold Class at hx
  rw [hist]
  have ht : (viewed (⟨type, misc, size, body, time⟩, i)).type = type := rfl
  have hm : isMmap (viewed (⟨type, misc, size, body, time⟩, i)) = (decide (type = 1) || decide (type = 10)) := rfl
  rw [ht, hm]
  simp only at hx ⊢
  cases body with
  | sample s => simp only [BodyClass] at hx; subst hx; rfl
  | mmap b =>
    have : type = 1 ∨ type = 10 := hx
    rcases this with rfl | rfl <;> rfl
  | comm c => simp only [BodyClass] at hx; subst hx; rfl
  | exit c => simp only [BodyClass] at hx; subst hx; rfl
  | fork f => simp only [BodyClass] at hx; subst hx; rfl
  | ksymbol c => simp only [BodyClass] at hx; subst hx; rfl
  | _ =>
    simp only [BodyClass, List.mem_cons, List.not_mem_nil, or_false, not_or] at hx
    obtain ⟨h1, h2, h3, h4, h5, h6, h7⟩ := hx
    simp [h1, h2, h4, h5, h6]

theorem inherit_some (T : Nat → Option (List Req)) (p q y : Nat) : (inherit T p q y).isSome = (p == y || (T y).isSome) := by
  unfold inherit
  by_cases h : y = p
  · subst h; simp
  · rw [if_neg h]
    have : (p == y) = false := by simpa using fun e => h e.symm
    rw [this]; rfl

/-- A process is known once it has been mentioned. -/
theorem hist_known {O : Opts} (p : Nat) : ∀ {h : List (Msg × Nat)}, (∀ x ∈ h, Class x.1) →
    (hist O (h.map viewed) p).isSome = (h.map Prod.fst).any (mentions p)
  | [], _ => rfl
  | x :: h, hk => by
    have ih := hist_known (O := O) p fun y hy => hk y (List.mem_cons_of_mem _ hy)
    rw [List.map_cons, List.map_cons, List.any_cons, hist_body (hk x List.mem_cons_self), ← ih]
    unfold mentions
    cases x.1.body with
    | sample s => exact inherit_some ..
    | mmap b =>
      simp only
      by_cases e : p = b.pid
      · subst e
        rw [if_pos rfl, beq_self_eq_true, Bool.true_or]
        unfold inherit
        rw [if_pos rfl]
        rfl
      · rw [if_neg e]
        have : (b.pid == p) = false := by simpa using fun h => e h.symm
        rw [this]; rfl
    | fork f =>
      simp only
      by_cases e : f.ppid = f.pid
      · rw [if_pos e, e]
        cases hb : f.pid == p <;> simp_all
      · rw [if_neg e, inherit_some]
        by_cases e2 : f.pid = p
        · subst e2; simp [e]
        · have : (f.pid == p) = false := by simpa using e2
          rw [this]; rfl
    | comm c => exact inherit_some ..
    | _ => rfl

theorem ranges_self (O : Opts) (H : List Ev) (p : Nat) : rangesOf O H p = (hist O H p).getD ((hist O H kernelPid).getD []) := by
  unfold rangesOf inherit
  rw [if_pos rfl, Option.getD_some]
  cases hist O H p <;> cases hist O H kernelPid <;> rfl

/-- The ranges after one more record. -/
theorem ranges_body {O : Opts} {x : Msg × Nat} (hx : Class x.1) {h : List (Msg × Nat)} (hk : ∀ y ∈ h, Class y.1) (p : Nat) :
    rangesOf O (viewed x :: h.map viewed) p = match x.1.body with
      | .mmap b =>
        if concerns (h.map Prod.fst) p b.pid then rangesOf O (h.map viewed) p ++ [requestAt O (h.map viewed) (viewed x)] else rangesOf O (h.map viewed) p
      | .fork f =>
        if f.ppid ≠ f.pid ∧ concerns (h.map Prod.fst) p f.pid = true ∧ (h.map Prod.fst).any (mentions f.pid) = false then
          rangesOf O (h.map viewed) f.ppid
        else rangesOf O (h.map viewed) p
      | _ => rangesOf O (h.map viewed) p := by
  have hkn := fun q => hist_known (O := O) q hk
  generalize hH : h.map viewed = H at *
  rw [ranges_self, hist_body hx]
  unfold concerns
  simp only [← hkn, ranges_self]
  have kp : kernelPid = 2 ^ 32 - 1 := rfl
  rw [← kp]
  generalize hist O H = T
  cases x.1.body with
  | sample s =>
    simp only [inherit]
    by_cases e : p = s.pid.getD 0
    · subst e
      rw [if_pos rfl]
      cases T (s.pid.getD 0) <;> cases T kernelPid <;> rfl
    · rw [if_neg e]
      by_cases e2 : kernelPid = s.pid.getD 0
      · rw [← e2, if_pos rfl]
        cases T p <;> cases T kernelPid <;> rfl
      · rw [if_neg e2]
  | comm c =>
    simp only [inherit]
    by_cases e : p = c.pid
    · subst e
      rw [if_pos rfl]
      cases T c.pid <;> cases T kernelPid <;> rfl
    · rw [if_neg e]
      by_cases e2 : kernelPid = c.pid
      · rw [← e2, if_pos rfl]
        cases T p <;> cases T kernelPid <;> rfl
      · rw [if_neg e2]
  | mmap b =>
    simp only [inherit, if_true]
    by_cases e : p = b.pid
    · subst e
      simp only [if_true, beq_self_eq_true, Bool.true_or]
      cases T b.pid <;> cases T kernelPid <;> rfl
    · rw [if_neg e]
      by_cases e2 : kernelPid = b.pid
      · rw [← e2] at e ⊢
        simp only [if_true, beq_self_eq_true, Bool.true_and]
        have : (p == kernelPid) = false := by simpa using e
        rw [this]
        cases T p <;> cases T kernelPid <;> rfl
      · rw [if_neg e2]
        have h1 : (p == b.pid) = false := by simpa using e
        have h2 : (b.pid == kernelPid) = false := by simpa using fun h => e2 h.symm
        rw [h1, h2]
        rfl
  | fork f =>
    simp only
    by_cases e0 : f.ppid = f.pid
    · rw [if_pos e0, if_neg (fun h => h.1 e0)]
    · rw [if_neg e0]
      by_cases e : p = f.pid
      · subst e
        simp only [inherit, if_true, beq_self_eq_true, Bool.true_or, true_and]
        cases hp : T f.pid with
        | some v => simp
        | none => simp [e0]
      · simp only [inherit, if_neg e]
        have h1 : (p == f.pid) = false := by simpa using e
        rw [h1, Bool.false_or]
        by_cases e2 : kernelPid = f.pid
        · rw [← e2, if_pos rfl, beq_self_eq_true, Bool.true_and]
          cases hp : T p with
          | some v => simp
          | none =>
            cases hk : T kernelPid with
            | some v => simp
            | none =>
              rw [← e2] at e0
              simp [e0]
        · rw [if_neg e2]
          have h2 : (f.pid == kernelPid) = false := by simpa using fun h => e2 h.symm
          rw [h2, Bool.false_and, if_neg (by simp)]
  | _ => rfl

theorem kernel_map {x : Msg × Nat} (hx : Class x.1) : isKernelMmap (viewed x) = kernelMap x.1 := by
  obtain ⟨⟨type, misc, size, body, time⟩, i⟩ := x
  unfold Class at hx
  show ((decide (type = 1) || decide (type = 10)) && decide (misc % 8 = 1)) = kernelMap ⟨type, misc, size, body, time⟩
  simp only at hx
  unfold kernelMap
  cases body with
  | mmap b =>
    have : type = 1 ∨ type = 10 := hx
    simp only
    rcases this with rfl | rfl <;> simp [BEq.beq]
  | sample s => simp only [BodyClass] at hx; subst hx; rfl
  | comm c => simp only [BodyClass] at hx; subst hx; rfl
  | exit c => simp only [BodyClass] at hx; subst hx; rfl
  | fork f => simp only [BodyClass] at hx; subst hx; rfl
  | ksymbol c => simp only [BodyClass] at hx; subst hx; rfl
  | _ =>
    simp only [BodyClass, List.mem_cons, List.not_mem_nil, or_false, not_or] at hx
    obtain ⟨h1, h2, h3, h4, h5, h6, h7⟩ := hx
    simp [h1, h6]

theorem request_place {O : Opts} {x : Msg × Nat} (hx : Plain x.1) {h : List (Msg × Nat)} (hk : ∀ y ∈ h, Class y.1) {b : Serial.MMap}
    (hb : x.1.body = .mmap b) :
    ((requestAt O (h.map viewed) (viewed x)).real, (requestAt O (h.map viewed) (viewed x)).real + (requestAt O (h.map viewed) (viewed x)).size) =
      placeOf (h.map Prod.fst) x.1 b := by
  have h1 := kernel_map hx.kind
  have h2 : (h.map viewed).any isKernelMmap = (h.map Prod.fst).any kernelMap := by
    rw [List.any_map, List.any_map]
    clear hx hb h1
    induction h with
    | nil => rfl
    | cons y h ih =>
      rw [List.any_cons, List.any_cons, ih fun z hz => hk z (List.mem_cons_of_mem _ hz)]
      congr 1
      exact kernel_map (hk y List.mem_cons_self)
  obtain ⟨r1, r2⟩ := hx.range b hb
  unfold requestAt placeOf
  rw [h1, h2]
  have h3 : (viewed x).mmap = some (hugeMap true b) := by
    unfold viewed parserView
    rw [hb]
  rw [h3, Option.getD_some]
  unfold Parser.request
  have e1 : (hugeMap true b).start = b.start := rfl
  have e2 : (hugeMap true b).len = b.len := rfl
  have e3 : (hugeMap true b).pgoff = b.pgoff := rfl
  rw [e1, e2, e3]
  have a1 : add64 b.start b.len = b.start + b.len := Nat.mod_eq_of_lt r1
  have a2 : add64 b.len b.start = b.start + b.len := by rw [← a1]; unfold add64; rw [Nat.add_comm]
  rw [a1, a2]
  cases kernelMap x.1 with
  | false => simp
  | true =>
    cases (h.map Prod.fst).any kernelMap with
    | true => simp
    | false =>
      simp only [Bool.not_false, Bool.and_self, Bool.true_and, true_and, Bool.and_eq_true, decide_eq_true_eq, gt_iff_lt]
      by_cases c : b.start < b.pgoff ∧ b.pgoff < b.start + b.len
      · rw [if_pos c, if_pos c, if_pos c]
        congr 1
        unfold sub64
        omega
      · rw [if_neg c, if_neg c, if_neg c]

/-- The pieces of a process are the addresses of the specification. -/
theorem live_places {O : Opts} : ∀ {h : List (Msg × Nat)}, (∀ x ∈ h, Plain x.1) → ∀ p,
    (live (rangesOf O (h.map viewed) p)).map ends = places (h.map Prod.fst) p
  | [], _, p => by rw [List.map_nil, List.map_nil, ranges_self]; rfl
  | x :: h, hk, p => by
    have hk' : ∀ y ∈ h, Plain y.1 := fun y hy => hk y (List.mem_cons_of_mem _ hy)
    have ih := live_places (O := O) hk'
    have hx := hk x List.mem_cons_self
    rw [List.map_cons, List.map_cons, ranges_body hx.kind (fun y hy => (hk' y hy).kind), places]
    cases hb : x.1.body with
    | mmap b =>
      simp only
      split
      · rw [live_snoc, ih, request_place hx (fun y hy => (hk' y hy).kind) hb]
      · exact ih p
    | fork f =>
      simp only
      split
      · exact ih _
      · exact ih p
    | _ => exact ih p

/-! ## Samples -/

theorem any_map_congr {α β : Type} (f : α → β) (p : α → Bool) (q : β → Bool) (h : ∀ x, p x = q (f x)) : ∀ l : List α, l.any p = (l.map f).any q
  | [] => rfl
  | x :: l => by rw [List.map_cons, List.any_cons, List.any_cons, h, any_map_congr f p q h l]

/-- All requests of all processes are accepted. -/
def AllGood (O : Opts) (H : List Ev) : Prop := ∀ p, ∀ b ∈ (specRun O.page [] (rangesOf O H p)).1, b = true

theorem find_any {α : Type} (p : α → Bool) : ∀ l : List α, (l.find? p).isSome = l.any p
  | [] => rfl
  | x :: l => by
    rw [List.find?_cons, List.any_cons]
    cases p x with
    | true => rfl
    | false => rw [Bool.false_or]; exact find_any p l

theorem region_reached {O : Opts} {h : List (Msg × Nat)} (hk : ∀ x ∈ h, Plain x.1) (hg : AllGood O (h.map viewed)) (p a : Nat) :
    (region O (h.map viewed) p a).isSome = reached (h.map Prod.fst) p a := by
  unfold region AddressMapper.specLookup reached
  rw [Option.isSome_map, ← live_places (O := O) hk, live_run (hg p), find_any]
  exact any_map_congr ends (fun p : Piece => p.has a) (fun r => decide (r.1 ≤ a ∧ a < r.2)) (fun _ => rfl) _

theorem all_extra (f : Nat → Bool) (a : Nat) (l : List Nat) : (a :: l.filter (fun x => decide (x ≠ a))).all f = (a :: l).all f := by
  rw [List.all_cons, List.all_cons]
  cases h : f a with
  | false => rfl
  | true =>
    rw [Bool.true_and, Bool.true_and]
    induction l with
    | nil => rfl
    | cons x l ih =>
      rw [List.filter_cons]
      by_cases e : x = a
      · subst e
        rw [if_neg (by simp), ih, List.all_cons, h]
        rfl
      · rw [if_pos (by simp [e]), List.all_cons, List.all_cons, ih]

theorem takeWhile_map_of {α β : Type} (f : α → β) (p : β → Bool) (l : List α) : (l.map f).takeWhile p = (l.takeWhile (fun x => p (f x))).map f := by
  rw [List.takeWhile_map]; rfl

/-- A sample as the parser sees it. -/
def sampleView (s : Serial.SampleEvent) (i : Nat) : Parser.Sample :=
  { ip := s.ip.getD 0, pid := s.pid.getD 0, tid := s.tid.getD 0, addr := s.addr, callchain := s.callchain,
    branches := s.branches.map parserBranch, rest := i }

theorem mapped_covered {reg : Nat → Option (Nat × Nat)} {h : List Msg} (s : Serial.SampleEvent) (i : Nat)
    (hr : ∀ a, (reg a).isSome = reached h (s.pid.getD 0) a) : Parser.allMapped reg (sampleView s i) = covered h s := by
  have hn : ∀ b : Serial.Branch, Parser.Branch.null (parserBranch b) = unused b := fun b => rfl
  have h1 : Parser.NullsLast (s.branches.map parserBranch) = (s.branches.dropWhile (fun b => !unused b)).all unused := by
    unfold Parser.NullsLast
    rw [List.dropWhile_map, List.all_map]
    have e1 : ((fun b : Parser.Branch => !b.null) ∘ parserBranch) = fun b => !unused b := funext fun b => by rw [Function.comp, hn]
    have e2 : Parser.Branch.null ∘ parserBranch = unused := funext hn
    rw [e1, e2]
  have e0 : (sampleView s i).branches = s.branches.map parserBranch := rfl
  have hreg : (fun a => (reg a).isSome) = reached h (s.pid.getD 0) := funext hr
  unfold Parser.allMapped covered
  rw [e0, h1]
  cases hc : (s.branches.dropWhile (fun b => !unused b)).all unused with
  | false => rfl
  | true =>
    rw [Bool.true_and, Bool.true_and, hreg]
    have h2 : Parser.usable (s.branches.map parserBranch) = (s.branches.takeWhile (fun b => !unused b)).map parserBranch := by
      unfold Parser.usable Parser.front
      rw [h1, hc, if_pos rfl, takeWhile_map_of]
      rfl
    rw [h2, List.flatMap_map]
    unfold codeIn
    have h3 : (sampleView s i).callchain.filter (fun a => Parser.isCode a && decide (a ≠ (sampleView s i).ip)) =
        (s.callchain.filter (fun a => decide (a < 2 ^ 64 - 4095))).filter (fun a => decide (a ≠ s.ip.getD 0)) := by
      rw [List.filter_filter]
      refine List.filter_congr fun a _ => ?_
      unfold Parser.isCode
      exact Bool.and_comm ..
    rw [h3]
    have h4 := all_extra (reached h (s.pid.getD 0)) (s.ip.getD 0) (s.callchain.filter (fun a => decide (a < 2 ^ 64 - 4095)))
    rw [← List.cons_append, List.all_append, ← List.cons_append, List.all_append]
    exact congrArg (fun x => x && ((s.branches.takeWhile (fun b => !unused b)).flatMap (fun b => [b.fromIp, b.toIp])).all (reached h (s.pid.getD 0))) h4

/-! ## Counters -/

theorem stats_body {O : Opts} {x : Msg × Nat} (hx : Class x.1) (H : List Ev) :
    Parser.statsAt O (viewed x :: H) = match x.1.body with
      | .sample s => Parser.sampleStats (region O H (s.pid.getD 0)) (sampleView s x.2)
          { Parser.statsAt O H with samples := (Parser.statsAt O H).samples + 1 }
      | .mmap _ => { Parser.statsAt O H with mmaps := (Parser.statsAt O H).mmaps + 1 }
      | .fork _ => { Parser.statsAt O H with forks := (Parser.statsAt O H).forks + 1 }
      | .exit _ => { Parser.statsAt O H with exits := (Parser.statsAt O H).exits + 1 }
      | .comm _ => { Parser.statsAt O H with comms := (Parser.statsAt O H).comms + 1 }
      | .ksymbol _ => { Parser.statsAt O H with ksymbols := (Parser.statsAt O H).ksymbols + 1 }
      | _ => Parser.statsAt O H := by
  obtain ⟨⟨type, misc, size, body, time⟩, i⟩ := x
  unfold Class at hx
  rw [Parser.statsAt]
  have ht : (viewed (⟨type, misc, size, body, time⟩, i)).type = type := rfl
  have hm : isMmap (viewed (⟨type, misc, size, body, time⟩, i)) = (decide (type = 1) || decide (type = 10)) := rfl
  rw [ht, hm]
  simp only at hx ⊢
  cases body with
  | sample s => simp only [BodyClass] at hx; subst hx; rfl
  | mmap b =>
    have : type = 1 ∨ type = 10 := hx
    rcases this with rfl | rfl <;> rfl
  | comm c => simp only [BodyClass] at hx; subst hx; rfl
  | exit c => simp only [BodyClass] at hx; subst hx; rfl
  | fork f => simp only [BodyClass] at hx; subst hx; rfl
  | ksymbol c => simp only [BodyClass] at hx; subst hx; rfl
  | _ =>
    simp only [BodyClass, List.mem_cons, List.not_mem_nil, or_false, not_or] at hx
    obtain ⟨h1, h2, h3, h4, h5, h6, h7⟩ := hx
    simp [h1, h2, h3, h4, h5, h6, h7]

/-- The counters that the specification gives. -/
def countAll (h : List Msg) : Parser.Stats :=
  { samples := h.countP sampleRecord, mmaps := h.countP mapRecord, comms := h.countP commRecord, forks := h.countP forkRecord,
    exits := h.countP exitRecord, ksymbols := h.countP ksymbolRecord, mapped := coveredIn h,
    dataSamples := h.countP (fun m => (dataAddress m).isSome), dataMapped := dataCoveredIn h }

theorem stats_tally {O : Opts} : ∀ {h : List (Msg × Nat)}, (∀ x ∈ h, Plain x.1) → (∀ n, AllGood O ((h.drop n).map viewed)) →
    Parser.statsAt O (h.map viewed) = countAll (h.map Prod.fst)
  | [], _, _ => rfl
  | x :: h, hk, hg => by
    have hk' : ∀ y ∈ h, Plain y.1 := fun y hy => hk y (List.mem_cons_of_mem _ hy)
    have ih := stats_tally (O := O) hk' (fun n => hg (n + 1))
    rw [List.map_cons, List.map_cons, stats_body (hk x List.mem_cons_self).kind, ih]
    cases hb : x.1.body with
    | sample s =>
      have hr := region_reached (O := O) hk' (by have := hg 1; simpa using this) (s.pid.getD 0)
      simp only
      unfold Parser.sampleStats countAll
      simp only [List.countP_cons, coveredIn, dataCoveredIn, dataAddress, sampleRecord, mapRecord, commRecord, forkRecord, exitRecord, ksymbolRecord, hb,
        mapped_covered s x.2 hr]
      have e : (sampleView s x.2).addr = s.addr := rfl
      rw [e]
      cases s.addr.filter (· ≠ 0) with
      | none => simp
      | some a =>
        simp only [Option.toList, List.length_singleton, Option.map_some, Option.isSome_some, List.filter_cons, List.filter_nil, hr]
        cases reached (h.map Prod.fst) (s.pid.getD 0) a <;> simp
    | mmap b => simp [countAll, coveredIn, dataCoveredIn, dataAddress, sampleRecord, mapRecord, commRecord, forkRecord, exitRecord, ksymbolRecord, hb, List.countP_cons]
    | fork b => simp [countAll, coveredIn, dataCoveredIn, dataAddress, sampleRecord, mapRecord, commRecord, forkRecord, exitRecord, ksymbolRecord, hb, List.countP_cons]
    | exit b => simp [countAll, coveredIn, dataCoveredIn, dataAddress, sampleRecord, mapRecord, commRecord, forkRecord, exitRecord, ksymbolRecord, hb, List.countP_cons]
    | comm b => simp [countAll, coveredIn, dataCoveredIn, dataAddress, sampleRecord, mapRecord, commRecord, forkRecord, exitRecord, ksymbolRecord, hb, List.countP_cons]
    | ksymbol b => simp [countAll, coveredIn, dataCoveredIn, dataAddress, sampleRecord, mapRecord, commRecord, forkRecord, exitRecord, ksymbolRecord, hb, List.countP_cons]
    | _ => simp [countAll, coveredIn, dataCoveredIn, dataAddress, sampleRecord, mapRecord, commRecord, forkRecord, exitRecord, ksymbolRecord, hb, List.countP_cons]

/-- The types of records that are looked at: those of the kernel up to `CGROUP`, but for `READ` and `BPF_EVENT`, and all of `perf` itself. -/
def lookedAt (type : Nat) : Bool := decide (type ≥ 64) || decide (type ∈ [1, 2, 3, 4, 5, 6, 7, 9, 10, 11, 12, 13, 14, 15, 16, 17, 19])

/-- The records that are looked at: up to the first of another type. The marks of finished rounds (68) are passed over. -/
def seen (t : List Msg) : List Msg := (t.filter (fun m => m.type ≠ 68)).takeWhile (fun m => lookedAt m.type)

/-- The events that the parser looks at. -/
theorem processed_seen (l : List Msg) : ∃ xs : List (Msg × Nat), Parser.processed (views parserView 0 l) = xs.map viewed ∧ xs.map Prod.fst = seen l := by
  refine ⟨((l.zipIdx.filter (fun x => decide (x.1.type ≠ 68))).takeWhile (fun x => lookedAt x.1.type)), ?_, ?_⟩
  · unfold Parser.processed Parser.relevant
    rw [views_zip, List.filter_map, List.takeWhile_map]
    rfl
  · unfold seen
    have : l = l.zipIdx.map Prod.fst := (List.zipIdx_map_fst 0 l).symm
    conv => rhs; rw [this]
    rw [List.filter_map, List.takeWhile_map]
    rfl

/-- What the parser counts in the events it is given. -/
theorem parser_tally {O : Opts} {S : Nat} {l : List Msg} {P : Parser.Result} (hS : Parser.Sensible O S (views parserView 0 l)) (hd : O.discard = false)
    (hp : Parser.parse O (views parserView 0 l) = some P) (hl : ∀ m ∈ l, Plain m) : P.stats = countAll (seen l).reverse := by
  obtain ⟨xs, h1, h2⟩ := processed_seen l
  have h3 := (Parser.counters hS hd hp).2.2.2.2.2.2.1
  have hm : ∀ x ∈ xs, Plain x.1 := fun x hx => by
    have : x.1 ∈ seen l := by rw [← h2]; exact List.mem_map_of_mem hx
    exact hl _ (List.mem_filter.1 (List.takeWhile_subset _ this)).1
  rw [h3, h1, ← List.map_reverse, stats_tally (fun x hx => hm x (List.mem_reverse.1 hx)), List.map_reverse, h2]
  intro n p
  by_cases hn : n ≤ xs.length
  · have h4 := Parser.ranges_good hS hd hp (i := xs.length - n) (by rw [h1, List.length_map]; omega) p
    unfold Parser.before at h4
    rw [h1, ← List.map_take, ← List.map_reverse] at h4
    rw [List.drop_reverse]
    exact h4
  · rw [List.drop_eq_nil_of_le (by rw [List.length_reverse]; omega), List.map_nil, ranges_self]
    intro b hb
    cases hb

/-! ## All records are looked at -/

theorem known_looked {n : Nat} (h : Data.known n = true) : lookedAt n = true := by
  unfold Data.known at h
  unfold lookedAt
  simp only [Bool.or_eq_true, List.contains_iff_mem, List.mem_cons, List.not_mem_nil, or_false] at h
  simp only [Bool.or_eq_true, decide_eq_true_eq, List.mem_cons, List.not_mem_nil, or_false]
  rcases h with h | h
  · right
    rcases h with h | h | h | h | h | h | h | h | h | h | h | h | h | h | h | h | h <;> rw [h] <;> decide
  · left
    rcases h with h | h | h | h | h | h | h | h | h | h | h <;> rw [h] <;> decide

theorem looked_from : FromEvents (fun m => lookedAt m.type = true) := by
  refine ⟨fun _ hk h => ?_, fun a ht h => h⟩
  unfold Serial.serialize at h
  split at h
  · cases h
  · cases h
  · cases h
    exact known_looked hk

theorem read_looked {cfg : Data.Cfg} {b : Serial.Bytes} {st : Data.St} (h : File.readBytes cfg b = some (some st)) : ∀ m ∈ st.events, lookedAt m.type = true :=
  read_all looked_from h

/-- A record that is neither a sample, a mapping, a name, a fork, an exit nor a symbol. -/
def Idle (m : Msg) : Prop :=
  match m.body with
  | .sample _ | .mmap _ | .comm _ | .fork _ | .exit _ | .ksymbol _ => False
  | _ => True

theorem idle_of {m : Msg} (hk : Class m) (ht : m.type = 68) : Idle m := by
  obtain ⟨type, misc, size, body, time⟩ := m
  simp only at ht
  subst ht
  unfold Idle
  unfold Class at hk
  simp only at hk ⊢
  cases body <;> first | trivial | (simp [BodyClass] at hk)

theorem any_idle {f : Msg → Bool} (hf : ∀ m, Idle m → f m = false) {keep : Msg → Bool} : ∀ {h : List Msg}, (∀ m ∈ h, keep m = false → Idle m) →
    (h.filter keep).any f = h.any f
  | [], _ => rfl
  | m :: h, hi => by
    have ih := any_idle hf (keep := keep) fun x hx => hi x (List.mem_cons_of_mem _ hx)
    rw [List.filter_cons]
    cases hk : keep m with
    | true => rw [if_pos rfl, List.any_cons, List.any_cons, ih]
    | false => rw [if_neg (by simp), List.any_cons, hf m (hi m List.mem_cons_self hk), ih]; rfl

theorem count_idle {f : Msg → Bool} (hf : ∀ m, Idle m → f m = false) {keep : Msg → Bool} : ∀ {h : List Msg}, (∀ m ∈ h, keep m = false → Idle m) →
    (h.filter keep).countP f = h.countP f
  | [], _ => rfl
  | m :: h, hi => by
    have ih := count_idle hf (keep := keep) fun x hx => hi x (List.mem_cons_of_mem _ hx)
    rw [List.filter_cons]
    cases hk : keep m with
    | true => rw [if_pos rfl, List.countP_cons, List.countP_cons, ih]
    | false => rw [if_neg (by simp), List.countP_cons, hf m (hi m List.mem_cons_self hk), ih]; rfl

theorem idle_body {m : Msg} (hi : Idle m) : (∀ s, m.body ≠ .sample s) ∧ (∀ s, m.body ≠ .mmap s) ∧ (∀ s, m.body ≠ .comm s) ∧ (∀ s, m.body ≠ .fork s) ∧
    (∀ s, m.body ≠ .exit s) ∧ (∀ s, m.body ≠ .ksymbol s) := by
  unfold Idle at hi
  refine ⟨?_, ?_, ?_, ?_, ?_, ?_⟩ <;> intro s h <;> rw [h] at hi <;> exact hi

theorem mentions_idle (p : Nat) (m : Msg) (hi : Idle m) : mentions p m = false := by
  obtain ⟨h1, h2, h3, h4, h5, h6⟩ := idle_body hi
  unfold mentions
  split <;> first | rfl | (rename_i h; first | exact absurd h (h1 _) | exact absurd h (h2 _) | exact absurd h (h3 _) | exact absurd h (h4 _))

theorem kernel_idle (m : Msg) (hi : Idle m) : kernelMap m = false := by
  obtain ⟨h1, h2, h3, h4, h5, h6⟩ := idle_body hi
  unfold kernelMap
  split
  · rename_i h; exact absurd h (h2 _)
  · rfl

theorem places_idle {keep : Msg → Bool} : ∀ {h : List Msg}, (∀ m ∈ h, keep m = false → Idle m) → ∀ p, places (h.filter keep) p = places h p
  | [], _, _ => rfl
  | m :: h, hi, p => by
    have hi' : ∀ x ∈ h, keep x = false → Idle x := fun x hx => hi x (List.mem_cons_of_mem _ hx)
    have ih := places_idle hi'
    have a1 := fun p => any_idle (mentions_idle p) hi'
    have a2 := any_idle kernel_idle hi'
    rw [List.filter_cons]
    cases hk : keep m with
    | true =>
      rw [if_pos rfl, places, places]
      unfold concerns placeOf
      simp only [ih, a1, a2]
    | false =>
      rw [if_neg (by simp), ih p, places]
      obtain ⟨h1, h2, h3, h4, h5, h6⟩ := idle_body (hi m List.mem_cons_self hk)
      split
      · rename_i h; exact absurd h (h2 _)
      · rename_i h; exact absurd h (h4 _)
      · rfl

theorem covered_idle {keep : Msg → Bool} : ∀ {h : List Msg}, (∀ m ∈ h, keep m = false → Idle m) →
    coveredIn (h.filter keep) = coveredIn h ∧ dataCoveredIn (h.filter keep) = dataCoveredIn h
  | [], _ => ⟨rfl, rfl⟩
  | m :: h, hi => by
    have hi' : ∀ x ∈ h, keep x = false → Idle x := fun x hx => hi x (List.mem_cons_of_mem _ hx)
    obtain ⟨ih1, ih2⟩ := covered_idle hi'
    have hr : ∀ p a, reached (h.filter keep) p a = reached h p a := fun p a => by unfold reached; rw [places_idle hi']
    have hc : ∀ s, covered (h.filter keep) s = covered h s := fun s => by
      unfold covered
      rw [funext (hr (s.pid.getD 0))]
    rw [List.filter_cons]
    cases hk : keep m with
    | true =>
      rw [if_pos rfl, coveredIn, dataCoveredIn, coveredIn, dataCoveredIn]
      simp only [hc, hr, ih1, ih2]
      exact ⟨trivial, trivial⟩
    | false =>
      rw [if_neg (by simp), ih1, ih2, coveredIn, dataCoveredIn]
      unfold dataAddress
      obtain ⟨h1, h2, h3, h4, h5, h6⟩ := idle_body (hi m List.mem_cons_self hk)
      constructor
      · split
        · rename_i h; exact absurd h (h1 _)
        · rfl
      · split
        · rename_i h
          split at h
          · rename_i h'; exact absurd h' (h1 _)
          · cases h
        · rfl

theorem takeWhile_self {α : Type} {p : α → Bool} : ∀ {l : List α}, (∀ x ∈ l, p x = true) → l.takeWhile p = l
  | [], _ => rfl
  | x :: l, h => by
    rw [List.takeWhile_cons, h x List.mem_cons_self, if_pos rfl, takeWhile_self fun y hy => h y (List.mem_cons_of_mem _ hy)]

/-- Nothing is left out. -/
theorem count_seen {l : List Msg} (hl : ∀ m ∈ l, lookedAt m.type = true) (hk : ∀ m ∈ l, Class m) : countAll (seen l).reverse = countAll l.reverse := by
  have e : seen l = l.filter (fun m => m.type ≠ 68) := by
    unfold seen
    exact takeWhile_self fun m hm => hl m (List.mem_filter.1 hm).1
  have hi : ∀ m ∈ l.reverse, decide (m.type ≠ 68) = false → Idle m := fun m hm h =>
    idle_of (hk m (List.mem_reverse.1 hm)) (by simpa using h)
  rw [e, ← List.filter_reverse]
  unfold countAll
  have f1 : ∀ m, Idle m → sampleRecord m = false := fun m hm => by
    unfold sampleRecord; split
    · rename_i h; exact absurd h ((idle_body hm).1 _)
    · rfl
  have f2 : ∀ m, Idle m → mapRecord m = false := fun m hm => by
    unfold mapRecord; split
    · rename_i h; exact absurd h ((idle_body hm).2.1 _)
    · rfl
  have f3 : ∀ m, Idle m → commRecord m = false := fun m hm => by
    unfold commRecord; split
    · rename_i h; exact absurd h ((idle_body hm).2.2.1 _)
    · rfl
  have f4 : ∀ m, Idle m → forkRecord m = false := fun m hm => by
    unfold forkRecord; split
    · rename_i h; exact absurd h ((idle_body hm).2.2.2.1 _)
    · rfl
  have f5 : ∀ m, Idle m → exitRecord m = false := fun m hm => by
    unfold exitRecord; split
    · rename_i h; exact absurd h ((idle_body hm).2.2.2.2.1 _)
    · rfl
  have f6 : ∀ m, Idle m → ksymbolRecord m = false := fun m hm => by
    unfold ksymbolRecord; split
    · rename_i h; exact absurd h ((idle_body hm).2.2.2.2.2 _)
    · rfl
  have f7 : ∀ m, Idle m → (dataAddress m).isSome = false := fun m hm => by
    unfold dataAddress; split
    · rename_i h; exact absurd h ((idle_body hm).1 _)
    · rfl
  rw [count_idle f1 hi, count_idle f2 hi, count_idle f3 hi, count_idle f4 hi, count_idle f5 hi, count_idle f6 hi, count_idle f7 hi,
    (covered_idle hi).1, (covered_idle hi).2]

end Verif.Whole
