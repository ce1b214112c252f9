import Verif.Base.Bytes

/-!
# Model of the recognition of messages

`StringToProfiles`, `/repo/src/perf_to_profile_lib.cc:28-40`, takes its input for a message if
`ParseFromArray` accepts it. That function belongs to the protobuf library and is not in `/repo`; modelled here is which bytes it
accepts for `PerfDataProto`, by the encoding of messages of proto2: unknown fields and fields with another wire type than the declared
one are skipped, numbers may be packed, messages and groups nest up to a depth of 100. What the accepted bytes mean is left open.
-/

namespace Verif.Tool

abbrev Bytes := List UInt8

/-- The kinds of fields of `perf_data.proto`: a number, several numbers, a string or bytes, a message. There are no others (no fields of
fixed length, no required ones, no enumerations, no groups); a map is a message for each entry. -/
inductive Kind where
  | number
  | numbers
  | bytes
  | message (i : Nat)
deriving DecidableEq, Repr

/-- The messages of `/repo/src/quipper/perf_data.proto:17-1135` with the numbers and kinds of their fields, in the order in which they
are declared. -/
def schema : List (List (Nat × Kind)) := [
  -- 0: PerfDataProto, 17-1135
  [(1, .message 2), (2, .message 39), (10, .message 3), (3, .number), (4, .message 40), (5, .numbers), (14, .message 43),
   (7, .message 44), (8, .message 41), (9, .message 42), (11, .message 45), (12, .message 47), (15, .message 48),
   (16, .message 49), (17, .message 50), (13, .message 51)],
  -- 1: PerfEventAttr, 22-177
  [(1, .number), (2, .number), (3, .number), (4, .number), (5, .number), (6, .number), (7, .number), (8, .number),
   (9, .number), (10, .number), (11, .number), (12, .number), (13, .number), (14, .number), (15, .number), (16, .number),
   (17, .number), (18, .number), (19, .number), (20, .number), (21, .number), (22, .number), (23, .number), (24, .number),
   (25, .number), (26, .number), (27, .number), (36, .number), (37, .number), (38, .number), (39, .number), (42, .number),
   (43, .number), (44, .number), (45, .number), (46, .number), (47, .number), (48, .number), (28, .number), (29, .number),
   (30, .number), (31, .number), (32, .number), (33, .number), (34, .number), (35, .number), (40, .number), (41, .number)],
  -- 2: PerfFileAttr, 181-186
  [(1, .message 1), (2, .numbers)],
  -- 3: PerfEventType, 192-203
  [(1, .number), (2, .bytes), (3, .number)],
  -- 4: SampleInfo, 208-226
  [(1, .number), (2, .number), (3, .number), (4, .number), (5, .number), (6, .number)],
  -- 5: CommEvent, 229-248
  [(1, .number), (2, .number), (3, .bytes), (4, .number), (5, .number), (6, .message 4)],
  -- 6: MMapEvent, 252-307
  [(1, .number), (2, .number), (3, .number), (4, .number), (5, .number), (9, .number), (10, .number), (11, .number),
   (12, .number), (17, .bytes), (13, .number), (14, .number), (6, .bytes), (7, .number), (15, .bytes), (16, .number),
   (8, .message 4)],
  -- 7: KsymbolEvent, 310-329
  [(1, .number), (2, .number), (3, .number), (4, .number), (5, .bytes), (6, .message 4)],
  -- 8: BpfMetadataEvent, 332-342
  [(1, .bytes), (2, .message 9), (3, .message 4)],
  -- 9: BpfMetadataEvent.metadataEntry, 338-338
  [(1, .bytes), (2, .bytes)],
  -- 10: ReadInfo, 345-360
  [(1, .number), (2, .number), (3, .message 11)],
  -- 11: ReadInfo.ReadValue, 350-354
  [(1, .number), (2, .number), (3, .number)],
  -- 12: BranchStackEntry, 363-390
  [(1, .number), (2, .number), (3, .number), (4, .number), (5, .number), (6, .number), (7, .number), (8, .number),
   (9, .number)],
  -- 13: WeightStruct, 401-410
  [(1, .number), (2, .number), (3, .number)],
  -- 14: SampleEvent, 413-497
  [(1, .number), (2, .number), (3, .number), (4, .number), (5, .number), (6, .number), (7, .number), (8, .number),
   (9, .number), (21, .bytes), (10, .number), (18, .message 10), (11, .numbers), (12, .message 12), (15, .number),
   (16, .number), (17, .number), (19, .number), (20, .number), (22, .number), (23, .number), (24, .number), (25, .number),
   (26, .message 13)],
  -- 15: ForkEvent, 503-521
  [(1, .number), (2, .number), (3, .number), (4, .number), (5, .number), (11, .message 4)],
  -- 16: LostEvent, 527-537
  [(1, .number), (2, .number), (3, .message 4)],
  -- 17: ThrottleEvent, 540-552
  [(1, .number), (2, .number), (3, .number), (4, .message 4)],
  -- 18: ReadEvent, 555-578
  [(1, .number), (2, .number), (3, .number), (4, .number), (5, .number), (6, .number), (7, .message 4)],
  -- 19: AuxEvent, 581-599
  [(1, .number), (2, .number), (3, .number), (4, .number), (5, .number), (6, .message 4)],
  -- 20: AuxtraceInfoEvent, 602-626
  [(1, .number), (2, .numbers)],
  -- 21: AuxtraceEvent, 629-651
  [(1, .number), (2, .number), (3, .number), (4, .number), (5, .number), (6, .number), (7, .bytes)],
  -- 22: AuxtraceErrorEvent, 654-678
  [(1, .number), (2, .number), (3, .number), (4, .number), (5, .number), (6, .number), (7, .bytes), (8, .number)],
  -- 23: IdIndexEventEntry, 681-693
  [(1, .number), (2, .number), (3, .number), (4, .number)],
  -- 24: IdIndexEvent, 695-697
  [(1, .message 23)],
  -- 25: ItraceStartEvent, 700-707
  [(1, .number), (2, .number), (3, .message 4)],
  -- 26: LostSamplesEvent, 712-718
  [(1, .number), (2, .message 4)],
  -- 27: ContextSwitchEvent, 721-733
  [(1, .number), (2, .number), (3, .number), (4, .message 4)],
  -- 28: PerfNamespacesLinkInfo, 736-742
  [(1, .number), (2, .number)],
  -- 29: NamespacesEvent, 745-757
  [(1, .number), (2, .number), (3, .message 28), (4, .message 4)],
  -- 30: ThreadMapEventEntry, 760-768
  [(1, .number), (2, .bytes), (3, .number)],
  -- 31: ThreadMapEvent, 771-773
  [(1, .message 30)],
  -- 32: StatConfigEventEntry, 776-782
  [(1, .number), (2, .number)],
  -- 33: StatConfigEvent, 785-789
  [(1, .message 32)],
  -- 34: StatEvent, 792-810
  [(1, .number), (2, .number), (3, .number), (4, .number), (5, .number), (6, .number)],
  -- 35: StatRoundEvent, 813-823
  [(1, .number), (2, .number)],
  -- 36: CgroupEvent, 826-835
  [(1, .number), (2, .bytes), (3, .message 4)],
  -- 37: TimeConvEvent, 839-854
  [(1, .number), (2, .number), (3, .number), (4, .number), (5, .number), (6, .number), (7, .number)],
  -- 38: EventHeader, 857-863
  [(1, .number), (2, .number), (3, .number)],
  -- 39: PerfEvent, 866-901
  [(1, .message 38), (2, .message 6), (3, .message 14), (4, .message 5), (5, .message 15), (9, .message 15),
   (6, .message 16), (7, .message 17), (8, .message 18), (11, .message 19), (13, .message 25), (14, .message 26),
   (15, .message 27), (16, .message 29), (18, .message 20), (12, .message 21), (19, .message 22), (26, .message 24),
   (20, .message 31), (17, .message 37), (21, .message 33), (22, .message 34), (23, .message 35), (24, .message 36),
   (25, .message 7), (27, .message 8), (10, .number)],
  -- 40: PerfEventStats, 904-922
  [(1, .number), (2, .number), (3, .number), (4, .number), (5, .number), (6, .number), (7, .number)],
  -- 41: PerfUint32Metadata, 925-931
  [(1, .number), (2, .numbers)],
  -- 42: PerfUint64Metadata, 934-940
  [(1, .number), (2, .numbers)],
  -- 43: PerfTracingMetadata, 943-950
  [(1, .bytes), (2, .number)],
  -- 44: PerfBuildID, 953-977
  [(1, .number), (2, .number), (3, .bytes), (4, .bytes), (5, .number), (6, .number), (7, .number)],
  -- 45: PerfCPUTopologyMetadata, 980-1000
  [(1, .bytes), (2, .numbers), (3, .bytes), (4, .numbers), (5, .message 46)],
  -- 46: PerfCPUTopologyMetadata.CPU, 993-998
  [(1, .number), (2, .number)],
  -- 47: PerfNodeTopologyMetadata, 1003-1018
  [(1, .number), (2, .number), (3, .number), (4, .bytes), (5, .number)],
  -- 48: PerfPMUMappingsMetadata, 1021-1030
  [(1, .number), (2, .bytes), (3, .number)],
  -- 49: PerfGroupDescMetadata, 1033-1045
  [(1, .bytes), (2, .number), (3, .number), (4, .number)],
  -- 50: PerfHybridTopologyMetadata, 1048-1058
  [(1, .bytes), (2, .number), (3, .bytes), (4, .numbers)],
  -- 51: StringMetadata, 1096-1132
  [(1, .message 52), (2, .message 52), (3, .message 52), (4, .message 52), (5, .message 52), (6, .message 52),
   (7, .message 52), (8, .message 52)],
  -- 52: StringMetadata.StringAndMd5sumPrefix, 1098-1104
  [(1, .bytes), (2, .number)] ]

/-- A field of a message; there is none in an unknown group. -/
def fieldKind (msg : Option Nat) (num : Nat) : Option Kind := (msg.bind (fun m => schema[m]?)).bind (fun fs => fs.lookup num)

/-- A number of up to `n` bytes: seven bits in each, the highest tells that there are more. -/
def readVarint : Nat → Bytes → Option (Nat × Bytes)
  | 0, _ => none
  | _, [] => none
  | n + 1, x :: l =>
    if x.toNat < 128 then some (x.toNat, l)
    else (readVarint n l).map (fun r => (x.toNat - 128 + 128 * r.1, r.2))

/-- Skip `n` bytes. -/
def skip (n : Nat) (b : Bytes) : Option Bytes := if n ≤ b.length then some (b.drop n) else none

/-- Numbers one after the other, up to the end. -/
def packed : Nat → Bytes → Bool
  | _, [] => true
  | 0, _ :: _ => false
  | fuel + 1, x :: l =>
    match readVarint 10 (x :: l) with
    | some (_, r) => packed fuel r
    | none => false

/-- The fields of a message, up to the end or, in a group, up to the mark of its end: what is left, or `none` if the bytes are
not accepted. A tag has up to five bytes and 32 bits, a length up to five bytes and 31 bits. -/
def fields : Nat → Nat → Option Nat → Option Nat → Bytes → Option Bytes
  | 0, _, _, _, _ => none
  | _ + 1, _, _, group, [] => if group = none then some [] else none
  | fuel + 1, depth, msg, group, x :: l =>
    match readVarint 5 (x :: l) with
    | none => none
    | some (t, b) =>
      let tag := t % 2 ^ 32
      let num := tag / 8
      if num = 0 then none
      else if tag % 8 = 0 then
        match readVarint 10 b with
        | some (_, r) => fields fuel depth msg group r
        | none => none
      else if tag % 8 = 1 then
        match skip 8 b with
        | some r => fields fuel depth msg group r
        | none => none
      else if tag % 8 = 2 then
        match readVarint 5 b with
        | none => none
        | some (n, b) =>
          if n ≥ 2 ^ 31 ∨ n > b.length then none
          else
            match fieldKind msg num with
            | some (.message m) =>
              if depth = 0 then none
              else if fields fuel (depth - 1) (some m) none (b.take n) = some [] then fields fuel depth msg group (b.drop n)
              else none
            | some .numbers => if packed n (b.take n) then fields fuel depth msg group (b.drop n) else none
            | _ => fields fuel depth msg group (b.drop n)
      else if tag % 8 = 3 then
        if depth = 0 then none
        else
          match fields fuel (depth - 1) none (some num) b with
          | some r => fields fuel depth msg group r
          | none => none
      else if tag % 8 = 4 then
        if group = some num then some b else none
      else if tag % 8 = 5 then
        match skip 4 b with
        | some r => fields fuel depth msg group r
        | none => none
      else none

/-- Does `PerfDataProto::ParseFromArray` accept the bytes? Every field takes a byte at least. -/
def isMessage (b : Bytes) : Bool := fields (b.length + 1) 100 (some 0) none b == some []

end Verif.Tool
