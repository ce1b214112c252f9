import Verif.Missing.Message
import Verif.Whole.Number

/-!
# Is the build ID that of the file that was mapped?
-/

namespace Verif.Missing
open Verif.Parser (Ev Parsed)
open Verif.Names (toBuildIDs buildIdText)
open Verif.Whole (exMachine recordingOf procMsg)
open Verif.File (fileImage)
open Verif.Serial (exMap exInfo exMsg)

/-- A name has one identity. -/
theorem identity_unique {out : List (Ev × Parsed)} {name : Bytes} {maj min ino maj' min' ino' : Nat} (h : Identity out name maj min ino)
    (h' : Identity out name maj' min' ino') : maj = maj' ∧ min = min' ∧ ino = ino' := by
  obtain ⟨e, h1, h2, h3⟩ := h
  obtain ⟨e', k1, k2, k3⟩ := h'
  rw [h1] at k1
  cases k1
  have hm := List.find?_some h1
  simp only [Bool.and_eq_true] at hm
  have ht := hm.1
  unfold isMap at ht
  simp only [Bool.or_eq_true, decide_eq_true_eq] at ht
  rcases ht with ht | ht
  · obtain ⟨a, b, c⟩ := h3 ht
    obtain ⟨a', b', c'⟩ := k3 ht
    exact ⟨a.trans a'.symm, b.trans b'.symm, c.trans c'.symm⟩
  · obtain ⟨a, b, c⟩ := h2 ht
    obtain ⟨a', b', c'⟩ := k2 ht
    exact ⟨a.symm.trans a', b.symm.trans b', c.symm.trans c'⟩

/-- C139, partial: if the first mapping of a name tells a device neither number of which is zero, a build ID that is taken is that of a file with the
device and the inode of the mapping, which is found under its name in our root directory, or in that of a thread that has samples in it or of its process.
Missing is that it is that of each mapping of the name. -/
theorem mapped_file_partial {fs : Files} {out : List (Ev × Parsed)} {name id : Bytes} {maj min ino : Nat}
    (hmod : ∀ m, ¬ ModuleName name m) (hid : Identity out name maj min ino) (hmaj : maj ≠ 0) (hmin : min ≠ 0) (h : Finds fs out name id) (hne : id ≠ []) :
    ∃ path n e, fs.node path = some n ∧ n.maj = maj ∧ n.min = min ∧ n.ino = ino ∧ n.elf = some e ∧ Disk.getBuildID e = some id ∧
      (path = name ∨ ∃ p t, SampledIn out name p t ∧ (path = inRoot t name ∨ path = inRoot p name)) := by
  cases h with
  | kernel => exact absurd rfl hne
  | module m _ _ hm => exact absurd hm (hmod m)
  | file threads maj' min' ino' hk _ ht hi' =>
    obtain ⟨rfl, rfl, rfl⟩ := identity_unique hid hi'
    cases hf : (pathsFor threads name).findSome? (idAt fs maj min ino) with
    | none => rw [hf] at hne; exact absurd rfl hne
    | some i =>
      simp only [Option.getD_some]
      obtain ⟨path, hpath, hat⟩ := List.exists_of_findSome?_eq_some hf
      unfold idAt at hat
      obtain ⟨n, hn, hat⟩ := Option.bind_eq_some_iff.1 hat
      by_cases hb : MayBe maj min ino n
      · rw [if_pos hb] at hat
        obtain ⟨e, he, hat⟩ := Option.bind_eq_some_iff.1 hat
        rcases hb with hb | hb | ⟨b1, b2, b3⟩
        · exact absurd hb hmaj
        · exact absurd hb hmin
        · refine ⟨path, n, e, hn, b1, b2, b3, he, hat, ?_⟩
          unfold pathsFor at hpath
          rcases List.mem_append.1 hpath with hpath | hpath
          · obtain ⟨t, ht1, ht2⟩ := List.mem_flatMap.1 hpath
            refine .inr ⟨t.1, t.2, (ht.mem _ _).1 ht1, ?_⟩
            rcases List.mem_cons.1 ht2 with rfl | ht2
            · exact .inl rfl
            · rcases List.mem_cons.1 ht2 with rfl | ht2
              · exact .inr rfl
              · cases ht2
          · rcases List.mem_cons.1 hpath with rfl | hpath
            · exact .inl rfl
            · cases hpath
      · rw [if_neg hb] at hat; cases hat

/-! ## Examples -/

/-- An ELF file with a build ID. -/
def elfOf (id : Bytes) : Disk.Elf :=
  { elf := true, names := true, sections := [{ name := some (ascii ".note.gnu.build-id"), notes := some [⟨3, ascii "GNU" ++ [0], id⟩] }] }

/-- A mapping of `pid` of a file with a device and an inode. -/
def nodeMsg (pid maj min ino time : Nat) : Serial.Msg :=
  exMsg 10 2 (.mmap { exMap with pid := pid, tid := pid, maj := maj, min := min, ino := ino, buildId := none, info := { exInfo with time := some time } })

/-- A mapping the kernel tells the build ID of. -/
def toldMsg (time : Nat) : Serial.Msg := Whole.mapMsg time

def libc : Bytes := ascii "/usr/lib/libc.so"

/-- Process 10 sees another file under the name than we do. -/
def exFiles : Files where
  node p := if p = ascii "/proc/10/root//usr/lib/libc.so" then some ⟨8, 1, 99, some (elfOf [1, 2, 3])⟩
    else if p = ascii "/proc/12/root//usr/lib/libc.so" then some ⟨8, 1, 77, some (elfOf [4, 5, 6])⟩
    else if p = libc then some ⟨8, 1, 55, some (elfOf [7, 8, 9])⟩ else none
  source _ := none

/-- What the tables of two messages say of the name of the example: that without and that with missing build IDs read. -/
def exTables (l : List Serial.Msg) : Option (Option Bytes × Option Bytes) :=
  match Tool.serializeFrom exMachine {} 5 (fileImage (recordingOf l)), serializeFrom exMachine exFiles {} 5 (fileImage (recordingOf l)) with
  | some (some m), some (some m') => some (Names.find (toBuildIDs m.info.buildIds []) libc, Names.find (toBuildIDs m'.info.buildIds []) libc)
  | _, _ => none

/-- The samples of process 10 are in the file that it sees, and the build ID of that is taken. A file with another inode is not, and one without samples
is not looked for. -/
example : exTables [nodeMsg 10 8 1 99 1, procMsg 10 2] = some (none, some (buildIdText [1, 2, 3])) ∧
    exTables [nodeMsg 10 8 1 55 1, procMsg 10 2] = some (none, some (buildIdText [7, 8, 9])) ∧
    exTables [nodeMsg 10 8 1 98 1, procMsg 10 2] = some (none, none) ∧ exTables [nodeMsg 10 8 1 99 1, procMsg 12 2] = some (none, none) := by decide +kernel

theorem ex_readable : Readable exFiles := fun _ => .inl rfl

theorem ex_noIdle : NoIdle exFiles := by
  intro name
  have hx : ∀ l : Bytes, (inRoot 0 name).take 13 ≠ l.take 13 → inRoot 0 name ≠ l := fun l h hc => h (by rw [hc])
  have ht : (inRoot 0 name).take 13 = ascii "/proc/0/root/" := by
    unfold inRoot
    rw [show ascii "/proc/" ++ Converter.decimal 0 ++ ascii "/root/" = ascii "/proc/0/root/" by decide +kernel,
      List.take_append_of_le_length (by decide +kernel), List.take_of_length_le (by decide +kernel)]
  unfold exFiles
  simp only
  rw [if_neg (hx _ (by rw [ht]; decide +kernel)), if_neg (hx _ (by rw [ht]; decide +kernel)), if_neg (hx _ (by rw [ht]; decide +kernel))]

/-- The parser knows all events; and the threads with samples in the file. -/
def exResult (R : Parser.Result) : Bool × List (Nat × Nat) :=
  (R.complete, R.parsed.filterMap (fun x => if libc ∈ named x.2 then x.1.sample.map (fun s => (s.pid, s.tid)) else none))

/-- `missing_message` and `mapped_file_partial` apply to an example: the file has samples, so a build ID is looked for. -/
example : ∃ m m' st events R, Tool.serializeFrom exMachine {} 5 (fileImage (recordingOf [nodeMsg 10 8 1 99 1, procMsg 10 2])) = some (some m) ∧
    serializeFrom exMachine exFiles {} 5 (fileImage (recordingOf [nodeMsg 10 8 1 99 1, procMsg 10 2])) = some (some m') ∧
    File.readBytes { env := exMachine.env } (fileImage (recordingOf [nodeMsg 10 8 1 99 1, procMsg 10 2])) = some (some st) ∧
    prepared exMachine {} st.base.info st.events = some events ∧
    Parser.parse (Tool.ParseOpts.parser {} exMachine.page) (Whole.views Whole.parserView 0 events) = some R ∧ SampledIn R.parsed libc 10 10 ∧
    ∃ id, Finds exFiles R.parsed libc id ∧ Names.find (toBuildIDs m'.info.buildIds []) libc =
      if id = [] then Names.find (toBuildIDs m.info.buildIds []) libc else some (buildIdText id) := by
  have h1 : ((Tool.serializeFrom exMachine {} 5 (fileImage (recordingOf [nodeMsg 10 8 1 99 1, procMsg 10 2]))).bind id).isSome = true := by decide +kernel
  have h2 : (((File.readBytes { env := exMachine.env } (fileImage (recordingOf [nodeMsg 10 8 1 99 1, procMsg 10 2]))).bind id).bind fun st =>
      (prepared exMachine {} st.base.info st.events).bind fun events =>
        (Parser.parse (Tool.ParseOpts.parser {} exMachine.page) (Whole.views Whole.parserView 0 events)).map exResult) = some (true, [(10, 10)]) := by
    decide +kernel
  generalize fileImage (recordingOf [nodeMsg 10 8 1 99 1, procMsg 10 2]) = b at *
  cases hm : Tool.serializeFrom exMachine {} 5 b with
  | none => rw [hm] at h1; cases h1
  | some m0 =>
    cases m0 with
    | none => rw [hm] at h1; cases h1
    | some m =>
      obtain ⟨m', st, events, R, k1, k2, k3, k4, k5, k6, k7, k8, k9⟩ := missing_message rfl ex_readable ex_noIdle hm
      rw [k2] at h2
      simp only [Option.bind_some, id_eq] at h2
      rw [k3, Option.bind_some, k5, Option.map_some] at h2
      have h3 := Option.some.inj h2
      unfold exResult at h3
      obtain ⟨h4, h5⟩ := Prod.mk.inj h3
      have hs : SampledIn R.parsed libc 10 10 := by
        have : ((10, 10) : Nat × Nat) ∈ R.parsed.filterMap (fun x => if libc ∈ named x.2 then x.1.sample.map (fun s => (s.pid, s.tid)) else none) := by
          rw [h5]; exact List.mem_cons_self
        obtain ⟨x, hx, hxe⟩ := List.mem_filterMap.1 this
        by_cases hn : libc ∈ named x.2
        · rw [if_pos hn] at hxe
          obtain ⟨s, hs1, hs2⟩ := Option.map_eq_some_iff.1 hxe
          obtain ⟨e1, e2⟩ := Prod.mk.inj hs2
          exact ⟨x, hx, s, hs1, e1, e2, (named_iff _ _).2 hn⟩
        · rw [if_neg hn] at hxe; cases hxe
      exact ⟨m, m', st, events, R, rfl, k1, k2, k3, k5, hs, (k9 h4 libc).1 ⟨10, 10, hs⟩⟩

/-- C139: if a number of the device is zero, as it is for files on btrfs, on overlays or on NFS, any file of the name is taken: here one with another
device and another inode. -/
theorem device_zero_violated : exTables [nodeMsg 10 0 45 31 1, procMsg 10 2] = some (none, some (buildIdText [1, 2, 3])) ∧
    (exFiles.node (ascii "/proc/10/root//usr/lib/libc.so")).map (fun n => (n.maj, n.min, n.ino)) = some (8, 1, 99) := by decide +kernel

/-- C139: two processes that have mapped different files of one name, as in containers, get one build ID, that of the first one's file, and the second
one's file is not looked for even if only that has samples. -/
theorem containers_violated :
    exTables [nodeMsg 10 8 1 99 1, nodeMsg 12 8 1 77 2, procMsg 10 3, procMsg 12 4] = some (none, some (buildIdText [1, 2, 3])) ∧
    (exFiles.node (ascii "/proc/12/root//usr/lib/libc.so")).map (fun n => (n.ino, n.elf.bind Disk.getBuildID)) = some (77, some [4, 5, 6]) ∧
    exTables [nodeMsg 10 8 1 99 1, nodeMsg 12 8 1 77 2, procMsg 12 4] = some (none, none) := by decide +kernel

/-- C139: a mapping with the build ID that the kernel told has no device, so that of any file of the name replaces the one that the kernel told. -/
theorem told_violated : exTables [toldMsg 1, procMsg 10 2] = some (some (buildIdText [0xab, 0xcd, 1, 2]), some (buildIdText [1, 2, 3])) ∧
    exMap.buildId = some (Util.rawDataToHexString [0xab, 0xcd, 1, 2]) := by decide +kernel

end Verif.Missing
