import Verif.Tool.ConvertModel
import Verif.Whole.Kind
import Verif.File.Props

/-!
# Recordings as messages, and back
-/

namespace Verif.Tool
open Verif.Serial (Msg)
open Verif.Whole (Machine Steady Tidy Timeline notMap touch)

/-- The steps of a conversion to a message. -/
theorem serialize_parts {M : Machine} {o : ParseOpts} {now : Nat} {b : Bytes} {m : Message} (h : serializeFrom M o now b = some (some m)) :
    ∃ st r, File.readBytes { env := M.env } b = some (some st) ∧
      Whole.parseEvents M (o.parser M.page) o.sort o.huge o.combine st.base.info st.events = some r ∧
      m = ⟨st.base.info, r.1, some ⟨r.2.samples, r.2.mmaps, r.2.forks, r.2.exits, o.remap, r.2.mapped⟩, some now⟩ := by
  unfold serializeFrom readRecording at h
  match hb : File.readBytes { env := M.env } b with
  | none => rw [hb] at h; cases h
  | some none => rw [hb] at h; cases h
  | some (some st) =>
    rw [hb] at h
    simp only [Option.map_some] at h
    obtain ⟨x, h1, h2⟩ := Option.map_eq_some_iff.1 h
    unfold parseHeld at h1
    obtain ⟨r, h3, h4⟩ := Option.map_eq_some_iff.1 h1
    subst h4
    exact ⟨st, r, rfl, h3, (Option.some.inj h2).symm⟩

theorem serialize_of {M : Machine} {o : ParseOpts} {now : Nat} {b : Bytes} {st : Data.St} (hb : File.readBytes { env := M.env } b = some (some st)) :
    serializeFrom M o now b = (Whole.parseEvents M (o.parser M.page) o.sort o.huge o.combine st.base.info st.events).map fun r =>
      some ⟨st.base.info, r.1, some ⟨r.2.samples, r.2.mmaps, r.2.forks, r.2.exits, o.remap, r.2.mapped⟩, some now⟩ := by
  unfold serializeFrom readRecording parseHeld
  rw [hb]
  simp only [Option.map_some, Option.map_map]
  rfl

/-- C117: the message of a recording knows beside the events what the recording says, and its events are those of the recording in the
order of their times (if that is asked for): exactly these where no mapping is changed, and in any case all events but the mappings; only a sample
without an address gets the address 0. -/
theorem message_keeps {M : Machine} {o : ParseOpts} (hr : o.remap = false) (hd : o.discard = false) {now : Nat} {b : Bytes} {m : Message}
    (h : serializeFrom M o now b = some (some m)) :
    ∃ st t, File.readBytes { env := M.env } b = some (some st) ∧
      (o.sort = true → Timeline st.base.info.attrs st.events t) ∧ (o.sort = false → t = st.events) ∧
      m.info = st.base.info ∧ m.time = some now ∧ m.events.filter notMap = (t.filter notMap).map touch ∧
      ((o.huge = false ∧ o.combine = false) ∨ Steady st.events → m.events = t.map touch) := by
  obtain ⟨st, r, hb, hp, rfl⟩ := serialize_parts h
  have hsh := Whole.read_shaped hb
  have hki := Whole.read_kind hb
  obtain ⟨l3, P, h1, rfl, h3, h4, h5⟩ := Whole.prep_parts hsh hp
  have ht : (Whole.parsed l3 P).1 = l3.map touch := Whole.parsed_touch (O := o.parser M.page) hr hd h3 h1
  refine ⟨st, Whole.ordered o.sort st.base.info st.events, hb, fun hs => ?_, fun hs => ?_, rfl, rfl, ?_, fun hs => ?_⟩
  · rw [hs]; exact Whole.sort_timeline _ _
  · rw [hs]; rfl
  · show (Whole.parsed l3 P).1.filter notMap = _
    rw [ht, ← h4, List.filter_map]
    congr 1
    refine List.filter_congr fun m _ => ?_
    exact Whole.touch_not m
  · show (Whole.parsed l3 P).1 = _
    rw [ht, h5 (hs.imp id fun h => ⟨h, hki⟩)]

/-- C117: a recording that can be read and whose mappings are in order gets a message, whatever is asked for but the discarding of mappings. -/
theorem message_made {M : Machine} (hM : ∀ l, (M.order l).Perm l) (hk : ∃ k, k ≤ 60 ∧ M.page = 2 ^ k) {o : ParseOpts} (hd : o.discard = false)
    (now : Nat) {b : Bytes} {st : Data.St} (hb : File.readBytes { env := M.env } b = some (some st)) (ht : Tidy M.page st.events) :
    ∃ m, serializeFrom M o now b = some (some m) := by
  obtain ⟨l3, P, S, h, -, -⟩ := Whole.prep_any hM hk (O := o.parser M.page) rfl hd o.sort o.huge o.combine st.base.info
    (Whole.read_shaped hb) (Whole.read_sized hb) ht
  rw [serialize_of hb, h]
  exact ⟨_, rfl⟩

/-- C117: bytes that cannot be read get none, and no message is made of them. -/
theorem message_refused {M : Machine} {o : ParseOpts} {now : Nat} {b : Bytes} (hb : File.readBytes { env := M.env } b = some none) :
    serializeFrom M o now b = some none := by
  unfold serializeFrom readRecording
  rw [hb]
  rfl

/-! ## Back to a file -/

theorem register_all : ∀ (l : List Attr.ProtoFileAttr) (ser : Attr.Ser), register ser l = Attr.registerAll ser false (l.map Attr.deserializeFileAttr)
  | [], _ => rfl
  | a :: l, ser => by
    rw [List.map_cons, register, Attr.registerAll]
    split
    · rename_i h; rw [h]; exact register_all l _
    · rename_i h; rw [h]

theorem fillSizes_full {env : Serial.Env} {ser : Attr.Ser} : ∀ {l : List Msg}, (∀ m ∈ l, 0 < m.size) → fillSizes env ser l = some (some l)
  | [], _ => rfl
  | m :: l, h => by
    rw [fillSizes, if_pos (h m List.mem_cons_self), fillSizes_full fun m hm => h m (List.mem_cons_of_mem _ hm)]
    rfl

theorem perm_lift {α β : Type} (f : α → β) : ∀ {l : List β} {t : List β}, t.Perm l → ∀ {xs : List α}, xs.map f = l → ∃ ys : List α, ys.Perm xs ∧ ys.map f = t := by
  intro l t h
  induction h with
  | nil => intro xs h; exact ⟨xs, .refl _, h⟩
  | cons a _ ih =>
    intro xs h
    obtain ⟨x, xs, rfl, rfl, rfl⟩ := List.map_eq_cons_iff.1 h
    obtain ⟨ys, h1, h2⟩ := ih rfl
    exact ⟨x :: ys, h1.cons x, by rw [List.map_cons, h2]⟩
  | swap a b l =>
    intro xs h
    obtain ⟨x, xs, rfl, rfl, h'⟩ := List.map_eq_cons_iff.1 h
    obtain ⟨y, xs, rfl, rfl, rfl⟩ := List.map_eq_cons_iff.1 h'
    exact ⟨y :: x :: xs, .swap .., rfl⟩
  | trans _ _ ih1 ih2 =>
    intro xs h
    obtain ⟨ys, h1, h2⟩ := ih2 h
    obtain ⟨zs, h3, h4⟩ := ih1 h2
    exact ⟨zs, h3.trans h1, h4⟩

/-- The size of a file does not depend on the order of the events. -/
theorem image_perm {i : Meta.Info} {es es' : List (Attr.FileAttr × Msg)} (h : es'.Perm es) :
    (File.fileImage ⟨i, es'⟩).length = (File.fileImage ⟨i, es⟩).length := by
  have hd : (File.dataImage ⟨i, es'⟩).length = (File.dataImage ⟨i, es⟩).length := by
    unfold File.dataImage
    exact (h.flatMap_right _).length_eq
  obtain ⟨-, -, -, -, -, h6⟩ := File.image_lengths ⟨i, es'⟩
  obtain ⟨-, -, -, -, -, g6⟩ := File.image_lengths ⟨i, es⟩
  rw [h6, g6, hd]
  rfl

theorem complete_perm {env : Serial.Env} {i : Meta.Info} {es es' : List (Attr.FileAttr × Msg)} (h : es'.Perm es)
    (hc : File.Complete env ⟨i, es⟩) : File.Complete env ⟨i, es'⟩ :=
  ⟨hc.info, hc.attrs, hc.places, hc.names, fun e he => hc.events e (h.mem_iff.1 he), by rw [image_perm h]; exact hc.size⟩

theorem event_size {env : Serial.Env} {i : Meta.Info} {f : Attr.FileAttr} {m : Msg} (h : File.EventOk env i f m) : 0 < m.size := by
  have := h.message.size
  rw [(File.bare_same m).2.2.1] at this
  rw [this]
  unfold Event.RawEvent.size
  omega

theorem timeline_perm {i : Meta.Info} {l t : List Msg} (h : Timeline i.attrs l t) : t.Perm l := by
  rw [Whole.timeline_sort h]
  exact Whole.sort_perm _ _

theorem touch_addressed {m : Msg} (h : ∀ s, m.body = .sample s → s.ip ≠ none) : touch m = m := by
  obtain ⟨type, misc, size, body, time⟩ := m
  cases body with
  | sample s =>
    cases hi : s.ip with
    | none => exact absurd hi (h s rfl)
    | some a =>
      unfold touch
      simp only [hi, Option.getD_some]
      rw [← hi]
  | _ => rfl

/-- C117: a recording in a file that is turned into a message and back into a file. Nothing is lost: if no mapping is changed and all samples have
addresses, the second file holds the events in the order of their times, and beside them what the reader knew of the first. -/
theorem message_round_trip {M : Machine} (hM : ∀ l, (M.order l).Perm l) (hk : ∃ k, k ≤ 60 ∧ M.page = 2 ^ k) {x : File.Recording} (now : Nat)
    (hx : File.Complete M.env x) (hs : Steady x.messages) (ht : Tidy M.page x.messages)
    (hip : ∀ m ∈ x.messages, ∀ s, m.body = .sample s → s.ip ≠ none)
    (hcmd : x.info.mask.testBit 11 = true → x.info.cmdTokens ≠ []) (hsz : (File.fileImage (File.again M.env.md5 x)).length < 2 ^ 62)
    (hsp : File.spare (File.loaded M.env.md5 x) < 2 ^ 62) :
    ∃ m b st, serializeFrom M {} now (File.fileImage x) = some (some m) ∧ deserializeTo M m = some (some b) ∧
      File.readBytes { env := M.env } b = some (some st) ∧ Timeline x.info.attrs x.messages st.events ∧
      ∃ y : File.Recording, y.info = File.loaded M.env.md5 x ∧ y.messages = st.events ∧ st.base.info = File.loaded M.env.md5 y := by
  obtain ⟨st0, r1, r2, r3, -, r5⟩ := File.read_image (cfg := { env := M.env }) hx rfl (tail := []) (by rw [List.append_nil]; have := hx.size; omega)
  rw [List.append_nil] at r1
  obtain ⟨m, hm⟩ := message_made hM hk (o := {}) rfl now r1 (by rw [r2]; exact ht)
  obtain ⟨st1, t, q1, q2, -, q4, -, -, q7⟩ := message_keeps (o := {}) rfl rfl hm
  rw [r1] at q1
  cases q1
  have q2 := q2 rfl
  have q7 := q7 (.inr (by rw [r2]; exact hs))
  rw [r2] at q2
  rw [r3] at q2 q4
  have hp : t.Perm x.messages := timeline_perm q2
  have ht' : t.map touch = t := by
    conv => rhs; rw [← List.map_id t]
    exact List.map_congr_left fun m hm => touch_addressed (hip m (hp.mem_iff.1 hm))
  rw [ht'] at q7
  obtain ⟨es, p1, p2⟩ := perm_lift (fun e : Attr.FileAttr × Msg => e.2) hp (xs := x.events) rfl
  have hc : File.Complete M.env ⟨File.loaded M.env.md5 x, es⟩ := complete_perm p1 (File.complete_again hx hsz)
  have hser : Attr.registerAll {} false ((File.loaded M.env.md5 x).attrs.map Attr.deserializeFileAttr) = some st0.base.ser := r5
  obtain ⟨b, st, w1, w2, w3, w4, -, -⟩ := File.file_round_trip (cfg := { env := M.env }) hc rfl hser hcmd hsp
  have w3 : st.events = t := by rw [w3]; exact p2
  refine ⟨m, b, st, hm, ?_, w2, by rw [w3]; exact q2, ?_⟩
  · unfold deserializeTo deserialize
    rw [q4, register_all, hser]
    simp only
    rw [q7, fillSizes_full]
    · simp only [Option.map_some]
      unfold writeHeld
      simp only
      rw [← p2]
      exact w1
    · intro m hm
      obtain ⟨e, he, rfl⟩ := List.mem_map.1 (hp.mem_iff.1 hm)
      exact event_size (hx.events e he)
  · exact ⟨⟨_, es⟩, rfl, by rw [w3]; exact p2, w4⟩

end Verif.Tool
