import Verif.Data.Safe2

/-! Reading a record goes wrong only for metadata of a BPF program. -/

namespace Verif.Data
open Verif.Buffer Verif.Event Verif.Sample Verif.Attr Verif.Names Verif.Text Verif.Util Verif.Meta Verif.Serial

theorem safe_lift {α : Type} {y : Option (Option α)} {Q : α → Prop} (h : y ≠ none) (hq : ∀ a, y = some (some a) → Q a) : SafeP (lift y) Q := by
  intro r hr
  cases y with
  | none => exact absurd rfl h
  | some y => exact ⟨y, r, rfl, hr, rfl, rfl, fun a ha => hq a (by rw [ha])⟩

theorem safe_remaining : SafeP remaining fun n => n < 2 ^ 63 := fun r hr =>
  ⟨_, r, remaining_eq hr, hr, rfl, rfl, fun a ha => by cases ha; have := hr.1; have := hr.2.2; omega⟩

theorem safe_readTrace {m : Msg} : Safe (readTrace m) := by
  unfold readTrace
  exact Safe.bind' safe_remaining fun rem hrem => Safe.ite (fun _ => Safe.fail) fun h =>
    Safe.bind (safe_data (by omega)) fun _ => Safe.pure _

theorem safe_skipRest {st : St} {rest : Nat} : Safe (skipRest st rest) :=
  Safe.bind safe_tell fun _ => Safe.bind (safe_seek _) fun _ => Safe.pure _

theorem addBuildId_ne {cfg : Cfg} {st : St} {e : RawEvent} (hfit : Fits e) (h72 : e.type = MMAP2 → 72 ≤ e.size) : addBuildId cfg st e ≠ none := by
  unfold addBuildId
  split
  · rename_i c
    have := h72 c.1
    refine bind_ne (cstr_ne (by omega) (hfit.str 72 (Or.inr (Or.inr (Or.inl ⟨c.1, rfl⟩))))) fun name _ => ?_
    split
    · simp
    · refine bind_ne (int_ne (by omega) (by omega)) fun n _ => ?_
      split
      · simp
      · refine bind_ne ?_ fun d _ => ?_
        · unfold fetch
          rw [if_pos (by unfold RawEvent.size at this; omega)]
          simp
        · split <;> simp
  · simp

theorem keep_safe {cfg : Cfg} {fs : List FileAttr} {st : St} (hacc : Accepted fs st.base.ser) (hne : st.base.ser.readers ≠ []) {e : RawEvent}
    (hok : e.Ok) {f : Nat} (hf : fixedPayloadSize e.type = some f) (hle : f ≤ e.size) (hfit : Fits e) (hbpf : e.type ≠ BPF_METADATA) :
    Safe (keep cfg st e) := by
  unfold keep
  obtain ⟨_, f1, f2, _⟩ := fixed_types hf
  refine Safe.bind' (safe_lift (Q := fun _ => True) ?_ fun _ _ => trivial) fun empty _ => Safe.ite (fun _ => Safe.pure _) fun _ => ?_
  · unfold emptyKernel
    split
    · rename_i c
      have : 40 ≤ e.size := by
        rcases c with c | c
        · have := f1 c; omega
        · have := f2 c; omega
      split
      · simp
      · split
        · obtain ⟨v, hv, _⟩ := int_some (e := e) (off := 24) (n := 8) (by omega) (by omega)
          rw [hv]; simp
        · simp
    · simp
  · refine Safe.bind' (safe_lift (Q := fun st' => st'.base.ser = st.base.ser) (addBuildId_ne hfit fun c => by have := f2 c; omega) fun st' h => ?_)
      fun st' hst => ?_
    · have := (addBuildId_some h).2.2.1
      exact congrArg (·.ser) this
    · have hs : serialize cfg.env st'.base.ser e ≠ none := by
        rw [hst]
        exact serialize_safe hacc hne hok hf hle hfit hbpf
      refine Safe.ite (fun _ => Safe.ite (fun _ => ?_) fun _ => Safe.pure _) fun _ => ?_
      · exact Safe.bind' (safe_lift (Q := fun _ => True) hs fun _ _ => trivial) fun m _ => Safe.pure _
      · refine Safe.bind' (safe_lift (Q := fun _ => True) hs fun _ _ => trivial) fun m _ => ?_
        split
        · exact Safe.bind safe_readTrace fun _ => Safe.pure _
        · exact Safe.bind (Safe.pure _) fun _ => Safe.pure _

theorem readEvent_safe {cfg : Cfg} {fs : List FileAttr} {st : St} (hacc : Accepted fs st.base.ser) {h : Header} (h8 : 8 ≤ h.size) (hs : h.size < 2 ^ 16)
    (hbpf : h.type ≠ BPF_METADATA) : Safe (readEvent cfg st h) := by
  unfold readEvent
  refine Safe.ite (fun _ => safe_skipRest) fun _ => Safe.ite (fun _ => Safe.fail) fun hne => ?_
  cases hf : fixedPayloadSize h.type with
  | none => exact Safe.fail
  | some fixed =>
    refine Safe.ite (fun _ => Safe.fail) fun hle => Safe.ite (fun _ => safe_skipRest) fun _ => ?_
    have hdata : SafeP (data (h.size - 8)) fun d => d.length = h.size - 8 := by
      intro r hr
      obtain ⟨x, r', a1, a2, a3, a4⟩ := safe_data (n := h.size - 8) (by omega) r hr
      refine ⟨x, r', a1, a2, a3, a4, fun d hd => ?_⟩
      rw [hd] at a1
      have e := readData_spec hr (n := h.size - 8) (by omega)
      rw [show data (h.size - 8) r = r.readData (h.size - 8) from rfl, e] at a1
      cases hsl : slice r.buf r.off (h.size - 8) with
      | none => rw [hsl] at a1; cases a1
      | some d' =>
        rw [hsl] at a1
        simp only [Option.some.injEq, Prod.mk.injEq] at a1
        rw [← a1.1]
        exact slice_length hsl
    refine Safe.bind' hdata fun d hd => Safe.bind safe_isCross fun x => ?_
    have hsz : (⟨h.type, h.misc, d⟩ : RawEvent).size = h.size := by unfold RawEvent.size; simp only; omega
    have hok : (⟨h.type, h.misc, d⟩ : RawEvent).Ok := by show (⟨h.type, h.misc, d⟩ : RawEvent).size < 2 ^ 16; rw [hsz]; exact hs
    obtain ⟨y, hy, hfit⟩ := decode_safe (ser := st.base.ser) (x := x) hok hf (by rw [hsz]; omega)
    refine Safe.bind' (safe_lift (Q := fun e => Fits e ∧ e.type = h.type ∧ e.size = h.size) (by rw [hy]; simp) fun e he => ?_) fun e ⟨g1, g2, g3⟩ => ?_
    · obtain ⟨s1, s2, s3⟩ := decode_same he
      rw [hy] at he
      exact ⟨hfit e (Option.some.inj he), s1, by rw [← hsz]; unfold RawEvent.size; rw [s3]⟩
    · refine Safe.bind (keep_safe hacc hne (by show e.size < 2 ^ 16; rw [g3]; exact hs) (by rw [g2]; exact hf) (by rw [g3]; omega) g1
        (by rw [g2]; exact hbpf)) fun p => Safe.pure _

theorem one_safe {cfg : Cfg} {fs : List FileAttr} {st : St} (hacc : Accepted fs st.base.ser) {r : Reader} (hr : r.Ok) (h : one cfg st r = none) :
    r.off + 8 ≤ r.buf.length ∧ intAt r r.off 4 = 84 := by
  unfold one at h
  rw [bind_def] at h
  obtain ⟨o, r1, hh, _, hacc', hval⟩ := header_accepted r hr
  rw [hh] at h
  cases o with
  | none => cases h
  | some hd =>
    obtain ⟨h1, h2⟩ := hval hd rfl
    obtain ⟨a1, a2, a3⟩ := hacc'.mp rfl
    refine ⟨a1, ?_⟩
    simp only at h
    by_cases hb : hd.type = 84
    · rw [h1] at hb; exact hb
    · exfalso
      have ok1 : r1.Ok := by rw [h2]; exact ⟨hr.1, by show r.off + 8 ≤ r.size; rw [hr.1]; exact a1, hr.2.2⟩
      obtain ⟨x, r', e, _⟩ := readEvent_safe (cfg := cfg) hacc (h := hd) (by rw [h1]; exact a2) (by rw [h1]; exact intAt_two) hb r1 ok1
      rw [h] at e
      cases e

theorem Effect.ser {cfg : Cfg} {x : Bool} {st st' : St} {c : List UInt8} {out : Option Msg} (h : Effect cfg x st c out st') :
    st'.base.ser = st.base.ser := congrArg (·.ser) h.rest

theorem Chain.ser {cfg : Cfg} {x : Bool} {st st' : St} {L : List (List UInt8 × Option Msg)} (h : Chain cfg x st L st') :
    st'.base.ser = st.base.ser := by
  induction h with
  | nil => rfl
  | cons e _ ih => rw [ih, e.ser]

end Verif.Data
