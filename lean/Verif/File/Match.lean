import Verif.File.Old
import Verif.Data.Skip

/-! The names of events and the attributes after any file was read. -/

namespace Verif.File
open Verif.Buffer Verif.Event Verif.Sample Verif.Attr Verif.Names Verif.Text Verif.Util Verif.Meta Verif.Serial Verif.Data

/-- What `p` returns, if it returns something, satisfies `Q`. -/
def Ends {α : Type} (p : P α) (Q : α → Prop) : Prop := ∀ r a r', p r = some (some a, r') → Q a

theorem Ends.bind {α β : Type} {p : P α} {f : α → P β} {Q : α → Prop} {R : β → Prop} (hp : Ends p Q) (hf : ∀ a, Q a → Ends (f a) R) :
    Ends (p >>= f) R := by
  intro r b r' h
  obtain ⟨a, r1, h1, h2⟩ := bind_ok h
  exact hf a (hp r a r1 h1) r1 b r' h2

theorem Ends.next {α β : Type} {p : P α} {f : α → P β} {R : β → Prop} (hf : ∀ a, Ends (f a) R) : Ends (p >>= f) R :=
  Ends.bind (Q := fun _ => True) (fun _ _ _ _ => True.intro) fun a _ => hf a

theorem Ends.pure {α : Type} {Q : α → Prop} {a : α} (h : Q a) : Ends (pure a : P α) Q := by
  intro r b r' e
  cases e
  exact h

theorem Ends.fail {α : Type} {Q : α → Prop} : Ends (fail : P α) Q := by
  intro r b r' e
  cases e

theorem Ends.abort {α : Type} {Q : α → Prop} : Ends (abort : P α) Q := by
  intro r b r' e
  cases e

theorem Ends.ite {α : Type} {c : Prop} [Decidable c] {p q : P α} {Q : α → Prop} (hp : c → Ends p Q) (hq : ¬ c → Ends q Q) :
    Ends (if c then p else q) Q := by
  by_cases h : c
  · rw [if_pos h]; exact hp h
  · rw [if_neg h]; exact hq h

theorem Ends.lift {α : Type} {x : Option (Option α)} {Q : α → Prop} (h : ∀ a, x = some (some a) → Q a) : Ends (Data.lift x) Q := by
  intro r a r' e
  unfold Data.lift at e
  match x, h with
  | none, _ => cases e
  | some none, _ => cases e
  | some (some b), h => cases e; exact h _ rfl

/-- The same attributes and names. -/
def Same (i j : Info) : Prop := j.attrs = i.attrs ∧ j.eventTypes = i.eventTypes

/-- The names are those of the attributes, or there are none. -/
def Matched (i : Info) : Prop := i.eventTypes = [] ∨ i.eventTypes.map (·.1) = i.attrs.map (·.attr.config)

theorem Same.matched {i j : Info} (h : Same i j) (hm : Matched i) : Matched j := by
  unfold Matched
  rw [h.1, h.2]
  exact hm

/-! ## The features -/

theorem ends_feature {md5 : Serial.Bytes → Nat} {st : Meta.St} {type size : Nat} (h : type ≠ 12) :
    Ends (readFeature md5 st type size) fun st' => Same st.info st'.info ∧ st'.info.mask = st.info.mask := by
  have one : ∀ {α : Type} {p : P α} {g : α → Meta.St}, (∀ a, Same st.info (g a).info ∧ (g a).info.mask = st.info.mask) →
      Ends (p >>= fun a => Pure.pure (g a) : P Meta.St) fun st' => Same st.info st'.info ∧ st'.info.mask = st.info.mask :=
    fun h => Ends.next fun a => Ends.pure (h a)
  have words : ∀ {p : P Nat} {w : Nat} {g : List Nat → Meta.St}, (∀ a, Same st.info (g a).info ∧ (g a).info.mask = st.info.mask) →
      Ends (fun r => (do
        let l ← readWords p w (r.size + 1) size
        if l = [] then fail else Pure.pure (g l) : P Meta.St) r) fun st' => Same st.info st'.info ∧ st'.info.mask = st.info.mask := by
    intro p w g hg r a r' e
    exact (Ends.next fun l => Ends.ite (fun _ => Ends.fail) fun _ => Ends.pure (hg l) :
      Ends (readWords p w (r.size + 1) size >>= fun l => if l = [] then fail else Pure.pure (g l))
        fun st' => Same st.info st'.info ∧ st'.info.mask = st.info.mask) r a r' e
  unfold readFeature
  split
  · exact one fun d => by split <;> exact ⟨⟨rfl, rfl⟩, rfl⟩
  · exact one fun _ => ⟨⟨rfl, rfl⟩, rfl⟩
  · exact one fun _ => ⟨⟨rfl, rfl⟩, rfl⟩
  · exact one fun _ => ⟨⟨rfl, rfl⟩, rfl⟩
  · exact one fun _ => ⟨⟨rfl, rfl⟩, rfl⟩
  · exact one fun _ => ⟨⟨rfl, rfl⟩, rfl⟩
  · exact words fun _ => ⟨⟨rfl, rfl⟩, rfl⟩
  · exact one fun _ => ⟨⟨rfl, rfl⟩, rfl⟩
  · exact one fun _ => ⟨⟨rfl, rfl⟩, rfl⟩
  · exact words fun _ => ⟨⟨rfl, rfl⟩, rfl⟩
  · exact Ends.next fun _ => one fun _ => ⟨⟨rfl, rfl⟩, rfl⟩
  · exact absurd rfl h
  · refine Ends.next fun _ => Ends.next fun _ => Ends.ite (fun _ => Ends.fail) fun _ => Ends.next fun _ => Ends.next fun _ =>
      Ends.ite (fun _ => Ends.fail) fun _ => Ends.next fun _ => Ends.next fun _ => ?_
    exact one fun _ => ⟨⟨rfl, rfl⟩, rfl⟩
  · exact Ends.next fun _ => one fun _ => ⟨⟨rfl, rfl⟩, rfl⟩
  · exact Ends.pure ⟨⟨rfl, rfl⟩, rfl⟩
  · exact Ends.next fun _ => Ends.ite (fun _ => Ends.fail) fun _ => one fun _ => ⟨⟨rfl, rfl⟩, rfl⟩
  · exact Ends.next fun _ => one fun _ => ⟨⟨rfl, rfl⟩, rfl⟩
  · exact Ends.next fun _ => one fun _ => ⟨⟨rfl, rfl⟩, rfl⟩
  · exact Ends.pure ⟨⟨rfl, rfl⟩, rfl⟩

theorem ends_addAttr {st : Meta.St} {f : FileAttr} {cross : Bool} :
    Ends (addAttr st f cross) fun st' => st'.info = { st.info with attrs := st.info.attrs ++ [serializeFileAttr f] } := by
  unfold addAttr
  exact Ends.ite (fun _ => Ends.pure rfl) fun _ => Ends.fail

theorem config_kept (a : EventAttr) (ids : List Nat) : (serializeFileAttr ⟨a, ids⟩).attr.config = a.config := by
  show (serializeAttr a).config = a.config
  unfold serializeAttr
  simp only
  split <;> (split <;> rfl)

theorem ends_eventDescs : ∀ (n : Nat) (st : Meta.St), st.info.eventTypes.map (·.1) = st.info.attrs.map (·.attr.config) →
    Ends (readEventDescs n st) fun st' => st'.info.eventTypes.map (·.1) = st'.info.attrs.map (·.attr.config)
  | 0, _, h => Ends.pure h
  | n + 1, st, h => by
    unfold readEventDescs
    refine Ends.next fun a => Ends.next fun nr => Ends.next fun name => Ends.next fun ids => Ends.next fun cross =>
      Ends.bind ends_addAttr fun st' hs => ends_eventDescs n _ ?_
    simp only [hs, List.map_append, h, List.map_cons, List.map_nil, config_kept]

theorem ends_eventDesc {st : Meta.St} (h : st.info.eventTypes = []) :
    Ends (readEventDesc st) fun st' => st'.info.eventTypes.map (·.1) = st'.info.attrs.map (·.attr.config) := by
  unfold readEventDesc
  refine Ends.next fun _ => Ends.ite (fun _ => Ends.fail) fun _ => Ends.next fun _ => ends_eventDescs _ _ ?_
  simp only [h, List.map_nil]

theorem ends_section {md5 : Serial.Bytes → Nat} {st : Meta.St} {type size : Nat} {Q : Meta.St → Prop}
    (h : Ends (readFeature md5 st type size) fun st' => Q (if supported.testBit type then setMaskBit st' type else st')) :
    Ends (readMetadataSection md5 st type size) Q := by
  unfold readMetadataSection
  refine Ends.next fun _ => Ends.ite (fun _ => Ends.fail) fun _ => Ends.next fun _ => Ends.bind h fun st' hq => Ends.next fun _ => ?_
  exact Ends.ite (fun _ => Ends.next fun _ => Ends.pure hq) fun _ => Ends.pure hq

theorem same_set (st : Meta.St) (type : Nat) (c : Bool) : Same st.info (if c then setMaskBit st type else st).info := by
  cases c <;> exact ⟨rfl, rfl⟩

theorem ends_features {md5 : Serial.Bytes → Nat} : ∀ (types : List Nat) (sections : List (Nat × Nat)) (st : Meta.St), types.Nodup →
    (12 ∈ types → st.info.mask.testBit 12 = true → st.info.eventTypes = []) → Matched st.info →
    Ends (readFeatures md5 types sections st) fun st' => Matched st'.info
  | [], _, _, _, _, hm => Ends.pure hm
  | type :: types, sections, st, hd, h12, hm => by
    rw [List.nodup_cons] at hd
    unfold readFeatures
    refine Ends.ite (fun hb => ?_) fun _ => ends_features types sections st hd.2 (fun h => h12 (List.mem_cons_of_mem _ h)) hm
    match sections with
    | [] => exact Ends.abort
    | (off, size) :: sections =>
      refine Ends.next fun _ => ?_
      by_cases ht : type = 12
      · subst ht
        have he := h12 (List.mem_cons_self ..) hb
        refine Ends.bind (Q := fun st' => Matched st'.info) (ends_section ?_) fun st' hst' =>
          ends_features types sections st' hd.2 (fun h => absurd h hd.1) hst'
        refine fun r a r' e => (same_set a 12 _).matched (Or.inr ?_)
        exact ends_eventDesc he r a r' e
      · refine Ends.bind (Q := fun st' => Same st.info st'.info ∧ st'.info.mask.testBit 12 = st.info.mask.testBit 12) (ends_section ?_)
          fun st' hst' => ends_features types sections st' hd.2 (fun h hb' => ?_) (hst'.1.matched hm)
        · intro r a r' e
          obtain ⟨k1, k2⟩ := ends_feature ht r a r' e
          obtain ⟨k3, k4⟩ := same_set a type (supported.testBit type)
          refine ⟨⟨k3.trans k1.1, k4.trans k1.2⟩, ?_⟩
          split
          · unfold setMaskBit
            simp only [k2, Nat.testBit_or, Nat.testBit_two_pow]
            simp [ht]
          · rw [k2]
        · rw [hst'.1.2]
          exact h12 (List.mem_cons_of_mem _ h) (by rw [← hst'.2]; exact hb')

/-! ## Attributes and names in sections of their own -/

theorem ends_readAttr {st : Meta.St} :
    Ends (readAttr st) fun st' => st'.info.eventTypes = st.info.eventTypes ∧ st'.info.mask = st.info.mask := by
  unfold readAttr
  refine Ends.next fun _ => Ends.next fun _ => Ends.next fun _ => Ends.next fun _ => Ends.next fun _ => Ends.next fun _ => Ends.next fun _ => ?_
  intro r a r' e
  rw [ends_addAttr r a r' e]
  exact ⟨rfl, rfl⟩

theorem ends_attrs : ∀ (n : Nat) (st : Meta.St),
    Ends (readAttrs n st) fun st' => st'.info.eventTypes = st.info.eventTypes ∧ st'.info.mask = st.info.mask
  | 0, _ => Ends.pure ⟨rfl, rfl⟩
  | n + 1, st => by
    unfold readAttrs
    refine Ends.bind ends_readAttr fun st' hs => ?_
    intro r a r' e
    obtain ⟨k1, k2⟩ := ends_attrs n st' r a r' e
    exact ⟨k1.trans hs.1, k2.trans hs.2⟩

theorem ends_types : ∀ (n idx : Nat) (st : Meta.St), st.info.eventTypes.map (·.1) = (st.info.attrs.map (·.attr.config)).take idx →
    idx + n = st.info.attrs.length →
    Ends (readTypes n idx st) fun st' => st'.info.eventTypes.map (·.1) = st'.info.attrs.map (·.attr.config) ∧ st'.info.mask = st.info.mask
  | 0, idx, st, h, hl => Ends.pure ⟨by
      rw [h, List.take_of_length_le]
      rw [List.length_map]; omega, rfl⟩
  | n + 1, idx, st, h, hl => by
    unfold readTypes
    refine Ends.bind (Q := fun st' => st'.info.attrs = st.info.attrs ∧
      st'.info.eventTypes.map (·.1) = (st.info.attrs.map (·.attr.config)).take (idx + 1) ∧ st'.info.mask = st.info.mask) ?_ fun st' hs => ?_
    · unfold readEventType
      refine Ends.next fun id => Ends.next fun name => ?_
      split
      · exact Ends.fail
      · rename_i f hf
        refine Ends.ite (fun _ => Ends.fail) fun _ => Ends.pure ⟨rfl, ?_, rfl⟩
        rw [List.take_add_one, List.getElem?_map, hf, List.map_append, h]
        rfl
    · have := ends_types n (idx + 1) st' (by rw [hs.2.1, hs.1]) (by rw [hs.1]; omega)
      rw [hs.2.2] at this
      exact this

theorem ends_typesSection {h : FileHeader} {st : Meta.St} (he : st.info.eventTypes = []) :
    Ends (readTypesSection h st) fun st' => Matched st'.info ∧ st'.info.mask = st.info.mask := by
  unfold readTypesSection
  simp only
  refine Ends.ite (fun _ => Ends.pure ⟨Or.inl he, rfl⟩) fun _ => Ends.ite (fun _ => Ends.fail) fun hn => Ends.ite (fun _ => Ends.fail) fun _ =>
    Ends.next fun _ => ?_
  intro r a r' e
  obtain ⟨k1, k2⟩ := ends_types _ 0 st (by rw [he]; rfl) (by omega) r a r' e
  exact ⟨Or.inr k1, k2⟩

theorem ends_old {h : FileHeader} {st : Meta.St} (he : st.info.eventTypes = []) :
    Ends (readOld h st) fun st' => Matched st'.info ∧ st'.info.mask = st.info.mask := by
  unfold readOld
  refine Ends.bind (Q := fun st' => st'.info.eventTypes = [] ∧ st'.info.mask = st.info.mask) ?_ fun st' hs => ?_
  · unfold readAttrsSection
    refine Ends.ite (fun _ => Ends.fail) fun _ => Ends.next fun _ => ?_
    have := ends_attrs (h.attrs.2 / h.attrSize) st
    rw [he] at this
    exact this
  · have := ends_typesSection (h := h) hs.1
    rw [hs.2] at this
    exact this

/-! ## The events -/

theorem ends_keep {cfg : Cfg} {st : Data.St} {e : RawEvent} : Ends (keep cfg st e) fun y => Same st.base.info y.1.base.info := by
  unfold keep
  refine Ends.next fun empty => Ends.ite (fun _ => Ends.pure ⟨rfl, rfl⟩) fun _ => ?_
  refine Ends.bind (Q := fun st' => Same st.base.info st'.base.info) (Ends.lift fun a ha => ?_) fun st' hs => ?_
  · unfold addBuildId at ha
    split at ha
    · rw [Option.bind_eq_bind, Option.bind_eq_some_iff] at ha
      obtain ⟨name, -, ha⟩ := ha
      split at ha
      · cases ha; exact ⟨rfl, rfl⟩
      · rw [Option.bind_eq_bind, Option.bind_eq_some_iff] at ha
        obtain ⟨n, -, ha⟩ := ha
        split at ha
        · cases ha
        · rw [Option.bind_eq_some_iff] at ha
          obtain ⟨d, -, ha⟩ := ha
          split at ha
          · cases ha
          · cases ha; exact ⟨rfl, rfl⟩
    · cases ha; exact ⟨rfl, rfl⟩
  · refine Ends.ite (fun _ => Ends.ite (fun _ => Ends.next fun _ => Ends.pure hs) fun _ => Ends.pure hs) fun _ => ?_
    refine Ends.next fun m => ?_
    have hr : ∀ m', Same st.base.info (report cfg { st' with events := st'.events ++ [m'] } m').base.info := by
      intro m'
      unfold report
      split
      · split <;> exact hs
      · exact hs
    exact Ends.ite (fun _ => Ends.next fun m' => Ends.pure (hr m')) fun _ => Ends.next fun m' => Ends.pure (hr m')

theorem ends_event {cfg : Cfg} {st : Data.St} {h : Header} : Ends (readEvent cfg st h) fun y => Same st.base.info y.1.base.info := by
  have skip : ∀ n, Ends (skipRest st n) fun y => Same st.base.info y.1.base.info := fun n =>
    Ends.next fun _ => Ends.next fun _ => Ends.pure ⟨rfl, rfl⟩
  unfold readEvent
  refine Ends.ite (fun _ => skip _) fun _ => Ends.ite (fun _ => Ends.fail) fun _ => ?_
  split
  · exact Ends.fail
  · refine Ends.ite (fun _ => Ends.fail) fun _ => Ends.ite (fun _ => skip _) fun _ => Ends.next fun d => Ends.next fun cross =>
      Ends.next fun e => Ends.bind ends_keep fun y hy => Ends.pure hy

theorem ends_events {cfg : Cfg} : ∀ (fuel left : Nat) (st : Data.St), Ends (readEvents cfg fuel left st) fun st' => Same st.base.info st'.base.info
  | 0, left, st => by
    unfold readEvents
    exact Ends.ite (fun _ => Ends.pure ⟨rfl, rfl⟩) fun _ => Ends.abort
  | fuel + 1, left, st => by
    unfold readEvents
    refine Ends.ite (fun _ => Ends.pure ⟨rfl, rfl⟩) fun _ => Ends.next fun h => Ends.bind ends_event fun y hy => ?_
    intro r a r' e
    obtain ⟨k1, k2⟩ := ends_events fuel _ y.1 r a r' e
    exact ⟨k1.trans hy.1, k2.trans hy.2⟩

/-! ## The file -/

theorem ends_file {cfg : Cfg} {h : FileHeader} {st : Data.St} (he : st.base.info.eventTypes = []) :
    Ends (readFileData cfg h st) fun st' => Matched st'.base.info ∧ (st'.base.info.eventTypes ≠ [] → st'.base.info.mask.testBit 12 = true) := by
  unfold readFileData
  refine Ends.next fun total => Ends.ite (fun _ => Ends.fail) fun _ => ?_
  have rest : ∀ b : Meta.St, Matched b.info → (b.info.mask.testBit 12 = true → b.info.eventTypes = []) →
      Ends (do
        let b ← readMetadata cfg.env.md5 b (addSz h.data.1 h.data.2)
        let st ← readDataSection cfg { st with base := b } h.data.1 h.data.2
        Pure.pure (if st.base.info.eventTypes ≠ [] then setBit st 12 else st) : P Data.St)
        fun st' => Matched st'.base.info ∧ (st'.base.info.eventTypes ≠ [] → st'.base.info.mask.testBit 12 = true) := by
    intro b hm h12
    refine Ends.bind (Q := fun b' => Matched b'.info) (Ends.next fun _ => Ends.next fun _ => ends_features _ _ _ (by decide) (fun _ => h12) hm)
      fun b' hb' => ?_
    refine Ends.bind (Q := fun st' => Matched st'.base.info) ?_ fun st' hst' => Ends.pure ?_
    · intro r a r' e
      obtain ⟨-, r1, -, e'⟩ := bind_ok e
      exact (ends_events _ _ _ r1 a r' e').matched hb'
    · split
      · have hsame : Same st'.base.info (setBit st' 12).base.info := ⟨rfl, rfl⟩
        refine ⟨hsame.matched hst', fun _ => ?_⟩
        show (st'.base.info.mask ||| 2 ^ 12).testBit 12 = true
        rw [Nat.testBit_or, Nat.testBit_two_pow]
        simp
      · rename_i h0
        exact ⟨hst', fun h1 => absurd h1 h0⟩
  refine Ends.ite (fun hb => ?_) fun hb => ?_
  · exact Ends.bind (Q := fun b => b = st.base) (Ends.pure rfl) fun b hbe => by
      subst hbe
      exact rest _ (Or.inl he) fun _ => he
  · exact Ends.bind (ends_old he) fun b hbe => rest b hbe.1 fun h12 => absurd (hbe.2 ▸ h12) hb

/-- The size in a header that is accepted is the second word of the file. -/
theorem header_size {b : Serial.Bytes} {h : FileHeader} {r : Reader} (hb : b.length < 2 ^ 63) (hh : readHeader (Reader.new b false) = some (some h, r)) :
    ∃ c, decodeInt c ((b.drop 8).take 8) = h.size := by
  have word : ∀ {r r' : Reader} {v : Nat}, r.Ok → u64 r = some (some v, r') →
      r.off + 8 ≤ r.buf.length ∧ v = decodeInt r.cross ((r.buf.drop r.off).take 8) ∧ r' = { r with off := r.off + 8 } := by
    intro r r' v hr h
    have h1 : u64 r = _ := readInt_spec hr (Or.inr (Or.inr rfl))
    rw [h1] at h
    cases hs : slice r.buf r.off 8 with
    | none => rw [hs] at h; cases h
    | some d =>
      rw [hs] at h
      simp only [Option.some.injEq, Prod.mk.injEq] at h
      have hd := Meta.slice_eq hs
      unfold slice at hs
      split at hs
      · rename_i hf
        exact ⟨hf, by rw [← h.1, hd], h.2.symm⟩
      · cases hs
  have hnew : (Reader.new b false).Ok := ⟨rfl, Nat.zero_le _, hb⟩
  unfold readHeader at hh
  obtain ⟨start, r1, e1, hh⟩ := bind_ok hh
  cases e1
  obtain ⟨_, r2, e2, hh⟩ := bind_ok hh
  cases e2
  obtain ⟨m, r3, e3, hh⟩ := bind_ok hh
  obtain ⟨k1, -, k3⟩ := word hnew e3
  subst k3
  have k1 : 0 + 8 ≤ b.length := k1
  split at hh
  · cases hh
  · obtain ⟨_, r4, e4, hh⟩ := bind_ok hh
    cases e4
    obtain ⟨size, r5, e5, hh⟩ := bind_ok hh
    obtain ⟨j1, j2, -⟩ := word ⟨rfl, by show 0 + 8 ≤ b.length; exact k1, hb⟩ e5
    refine ⟨_, j2.symm.trans ?_⟩
    obtain ⟨_, r6, -, hh⟩ := bind_ok hh
    obtain ⟨_, r7, -, hh⟩ := bind_ok hh
    split at hh
    · cases hh; rfl
    · have : Ends (readRest size) fun h => h.size = size := by
        unfold readRest
        exact Ends.next fun _ => Ends.next fun _ => Ends.next fun _ => Ends.next fun _ => Ends.next fun _ => Ends.next fun _ => Ends.next fun _ => Ends.pure rfl
      exact (this _ _ _ hh).symm

/-- Names and attributes after any file was read. -/
theorem file_names {cfg : Cfg} {b : Serial.Bytes} {st : Data.St} (hb : b.length < 2 ^ 63) (h1 : ∀ c, decodeInt c ((b.drop 8).take 8) ≠ 16)
    (h : readBytes cfg b = some (some st)) :
    Matched st.base.info ∧ (st.base.info.eventTypes ≠ [] → st.base.info.mask.testBit 12 = true) := by
  unfold readBytes at h
  rw [Option.map_eq_some_iff] at h
  obtain ⟨⟨o, r⟩, h, ho⟩ := h
  simp only at ho
  subst ho
  unfold readFromData at h
  obtain ⟨_, r1, e1, h⟩ := bind_ok h
  cases e1
  split at h
  · cases h
  · obtain ⟨hd, r2, e2, h⟩ := bind_ok h
    obtain ⟨c, hc⟩ := header_size hb e2
    split at h
    · exact ends_file (by rfl) _ _ _ h
    · split at h
      · cases h
      · rename_i h16
        exact absurd (hc.trans (Classical.not_not.mp h16)) (h1 c)

end Verif.File
