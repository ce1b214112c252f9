{
 "claims": [
  {
   "property": "C01",
   "status": "proved",
   "theorems": [
    "Verif.IntervalMap.C01_last_write_wins",
    "Verif.IntervalMap.run_isSome_iff"
   ],
   "note": "Refinement to the last call touching the key; aborts exactly on empty intervals."
  },
  {
   "property": "C02",
   "status": "partial",
   "theorems": [
    "Verif.IntervalMap.C02_sorted_disjoint",
    "Verif.IntervalMap.C02_findNext_partial",
    "Verif.IntervalMap.C02_findNext_doc_partial",
    "Verif.IntervalMap.C02_findNext_violated"
   ],
   "note": "Invariant proved. The documented FindNext contract is false of the code (witness proved); what FindNext does is characterised and it meets its contract for keys in gaps."
  },
  {
   "property": "C03",
   "status": "partial",
   "theorems": [
    "Verif.AddressMapper.C03_injective",
    "Verif.AddressMapper.C03_distance",
    "Verif.AddressMapper.C03_exhausted_violated",
    "Verif.AddressMapper.C03_top_of_memory_violated"
   ],
   "note": "Injectivity and distances proved for all histories with room in the remapped space (always, without page alignment). Counterexamples proved for an exhausted remapped space with page alignment (collision) and for a range ending exactly at 2^64 (undefined behaviour)."
  },
  {
   "property": "C04",
   "status": "proved",
   "theorems": [
    "Verif.AddressMapper.C04_refines_pieces",
    "Verif.AddressMapper.C04_refines_pieces_unaligned",
    "Verif.AddressMapper.C04_newest_wins",
    "Verif.AddressMapper.C04_last_request_found",
    "Verif.AddressMapper.C04_partial_overlap_drops_violated"
   ],
   "note": "Refinement to a piece specification, and the specification reports the newest accepted request. The stronger reading (an older range survives a partial overlap) is refuted."
  },
  {
   "property": "C05",
   "status": "proved",
   "theorems": [
    "Verif.AddressMapper.C05_page_offset"
   ],
   "note": "For all histories with room in the remapped space."
  },
  {
   "property": "C06",
   "status": "partial",
   "theorems": [
    "Verif.AddressMapper.C06_violated",
    "Verif.AddressMapper.C06_early_refusal_partial",
    "Verif.AddressMapper.C06_refusal_is_local_partial"
   ],
   "note": "False of the code: a refused page-cutting request loses the old range (witness proved). What holds: early refusals change nothing, other refusals only lose the enclosing range."
  },
  {
   "property": "C07",
   "status": "proved",
   "theorems": [
    "Verif.Builder.stringId_zero_iff",
    "Verif.Builder.stringId_eq_iff",
    "Verif.Builder.stringId_stays",
    "Verif.Builder.stringTable_eq",
    "Verif.Builder.stringTable_nodup"
   ],
   "note": ""
  },
  {
   "property": "C08",
   "status": "proved",
   "theorems": [
    "Verif.Builder.functionId_eq_iff",
    "Verif.Builder.functionId_stays",
    "Verif.Builder.functionIds_numbered",
    "Verif.Builder.functions_eq"
   ],
   "note": ""
  },
  {
   "property": "C09",
   "status": "proved",
   "theorems": [
    "Verif.Builder.checkValid_iff_valid",
    "Verif.Builder.checkValid_narrowing_violated",
    "Verif.Builder.checkValid_zero_ids_violated"
   ],
   "note": "The two theorems on samples apart show what the check does not establish: ids of 0 and indices beyond the range of int are accepted."
  },
  {
   "property": "C10",
   "status": "proved",
   "theorems": [
    "Verif.Builder.finalize_locations"
   ],
   "note": ""
  },
  {
   "property": "C11",
   "status": "proved",
   "theorems": [
    "Verif.Builder.finalize_mapping_sound",
    "Verif.Builder.finalize_mapping_complete",
    "Verif.Builder.finalize_created_mapping",
    "Verif.Builder.finalize_limit_included"
   ],
   "note": ""
  },
  {
   "property": "C12",
   "status": "proved",
   "theorems": [
    "Verif.Spe.nextRecord_safe",
    "Verif.Spe.decodeAll_terminates"
   ],
   "note": ""
  },
  {
   "property": "C13",
   "status": "proved",
   "theorems": [
    "Verif.Spe.nextRecord_failure_stable"
   ],
   "note": ""
  },
  {
   "property": "C14",
   "status": "proved",
   "theorems": [
    "Verif.Spe.decodeAll_encoded",
    "Verif.Spe.nextRecord_encoded"
   ],
   "note": "All packet kinds except alignment packets, which are C59."
  },
  {
   "property": "C15",
   "status": "partial",
   "theorems": [
    "Verif.Util.C15_roundtrip",
    "Verif.Util.C15_digits",
    "Verif.Util.C15_injective",
    "Verif.Util.C15_writes_within",
    "Verif.Util.C15_rejects_non_hex_partial",
    "Verif.Util.C15_accepts_non_hex_violated"
   ],
   "note": "Round trip, digits, injectivity and write bounds proved for all inputs. Rejection of non-hex pairs holds only for text without NUL, white space and signs: counterexamples proved."
  },
  {
   "property": "C16",
   "status": "proved",
   "theorems": [
    "Verif.Util.C16_align",
    "Verif.Util.C16_align_wraps",
    "Verif.Util.C16_swap_reverses",
    "Verif.Util.C16_swap_involutive",
    "Verif.Util.C16_reverseByte_reverses",
    "Verif.Util.C16_reverse_involutive",
    "Verif.Util.C16_getNumBits"
   ],
   "note": ""
  },
  {
   "property": "C17",
   "status": "partial",
   "theorems": [
    "Verif.Buffer.C17_refines_cursor",
    "Verif.Buffer.C17_failure_moves",
    "Verif.Buffer.C17_success_exact",
    "Verif.Buffer.C17_sized_string_violated"
   ],
   "note": "Full refinement to a cursor for all call sequences. As stated it is false in one point: a failed length-prefixed string read consumes the length (witness proved)."
  },
  {
   "property": "C18",
   "status": "partial",
   "theorems": [
    "Verif.Buffer.C18_step_partial",
    "Verif.Buffer.C18_run_partial",
    "Verif.Buffer.C18_untouched",
    "Verif.Buffer.C18_written",
    "Verif.Buffer.C18_writeString_violated"
   ],
   "note": "Exact effect of every call sequence, except WriteString calls whose position + size overflows 64 bits: these write out of bounds (witness proved)."
  },
  {
   "property": "C19",
   "status": "proved",
   "theorems": [
    "Verif.Buffer.C19_read_back",
    "Verif.Buffer.C19_written",
    "Verif.Buffer.C19_roundtrip"
   ],
   "note": ""
  },
  {
   "property": "C20",
   "status": "partial",
   "theorems": [
    "Verif.Text.C20_roundtrip_partial",
    "Verif.Text.C20_empty_violated",
    "Verif.Text.C20_unsorted_violated",
    "Verif.Text.C20_largest_violated"
   ],
   "note": "Proved for non-empty strictly increasing lists without the two largest numbers together; false for the others (witnesses proved)."
  },
  {
   "property": "C21",
   "status": "proved",
   "theorems": [
    "Verif.Text.C21_perfize_length",
    "Verif.Text.C21_perfize_idempotent",
    "Verif.Text.C21_perfize_keeps",
    "Verif.Text.C21_trim_exact",
    "Verif.Text.C21_trim_idempotent",
    "Verif.Text.C21_trim_perfize",
    "Verif.Text.C21_trim_perfize_groups",
    "Verif.Text.C21_perfize_trim"
   ],
   "note": ""
  },
  {
   "property": "C22",
   "status": "partial",
   "theorems": [
    "Verif.HugePages.combine_keeps_partial",
    "Verif.HugePages.combine_complete",
    "Verif.HugePages.merge_decision",
    "Verif.HugePages.combine_complete_all",
    "Verif.HugePages.combine_offset_violated",
    "Verif.Whole.identity_seen"
   ],
   "note": "Everything but the offset of anonymous memory, which is merged into a data mapping before it and then has an offset behind that data (proved)."
  },
  {
   "property": "C23",
   "status": "proved",
   "theorems": [
    "Verif.HugePages.deduce_relabels",
    "Verif.HugePages.deduce_dynamic"
   ],
   "note": ""
  },
  {
   "property": "C24",
   "status": "partial",
   "theorems": [
    "Verif.Sample.read_layout",
    "Verif.Sample.write_read_partial",
    "Verif.Sample.write_read_violated"
   ],
   "note": "Reading is proved for every event that has the documented layout, in both byte orders. Write then read needs no_hw_idx of the sample to agree with the attribute; without that it is false (proved)."
  },
  {
   "property": "C25",
   "status": "proved",
   "theorems": [
    "Verif.Sample.sampleDataSize_exact",
    "Verif.Sample.sampleDataSize_layout",
    "Verif.Sample.write_layout"
   ],
   "note": ""
  },
  {
   "property": "C26",
   "status": "proved",
   "theorems": [
    "Verif.Sample.read_safe",
    "Verif.Sample.read_lists_bounded"
   ],
   "note": ""
  },
  {
   "property": "C27",
   "status": "partial",
   "theorems": [
    "Verif.Data.section_tiled",
    "Verif.Data.section_alone",
    "Verif.Data.section_append",
    "Verif.Data.section_safe_partial",
    "Verif.Data.section_safe",
    "Verif.Data.section_safe_violated",
    "Verif.File.read_safe_partial",
    "Verif.File.surplus_refused"
   ],
   "note": "Tiling is proved for all data. Termination and safety for all data in which reading does not come to a record of BPF metadata; for those they are violated (proved)."
  },
  {
   "property": "C28",
   "status": "partial",
   "theorems": [
    "Verif.Meta.write_metadata",
    "Verif.Meta.write_metadata_refused",
    "Verif.Meta.read_metadata",
    "Verif.Meta.metadata_round_trip",
    "Verif.Meta.nul_violated",
    "Verif.Meta.build_id_violated",
    "Verif.Meta.no_pmus_violated",
    "Verif.Meta.entries_violated",
    "Verif.Meta.topology_violated",
    "Verif.Meta.hybrid_violated",
    "Verif.File.file_round_trip"
   ],
   "note": "For metadata that satisfy the conditions spelled out in Meta/Spec.lean (Faithful); what happens outside of them is shown by the _violated theorems."
  },
  {
   "property": "C29",
   "status": "proved",
   "theorems": [
    "Verif.Names.sorted",
    "Verif.Names.stable_unique"
   ],
   "note": ""
  },
  {
   "property": "C30",
   "status": "partial",
   "theorems": [
    "Verif.Names.renamed_events",
    "Verif.Names.renamed_entries",
    "Verif.Names.rename_aborts_iff",
    "Verif.Names.rename_too_big_violated"
   ],
   "note": "Names and sizes for names below 2^31 bytes; the new size need not fit the 16 bits it has in a file (proved)."
  },
  {
   "property": "C31",
   "status": "proved",
   "theorems": [
    "Verif.Parser.unmapped_marked",
    "Verif.Parser.marked_only_unmapped"
   ],
   "note": ""
  },
  {
   "property": "C32",
   "status": "proved",
   "theorems": [
    "Verif.Parser.nullsLast_iff",
    "Verif.Parser.branches_reported",
    "Verif.Parser.null_iff"
   ],
   "note": "A malformed branch stack keeps its raw addresses even with remapping."
  },
  {
   "property": "C33",
   "status": "partial",
   "theorems": [
    "Verif.Normalizer.process_reports",
    "Verif.Normalizer.mapping_contains",
    "Verif.Normalizer.lookup_ideal_partial",
    "Verif.Normalizer.lookup_exec_violated",
    "Verif.Normalizer.lookup_fork_violated",
    "Verif.Normalizer.contextFromHeader_iff"
   ],
   "note": "Every reported address lies in its mapping, which is the newest one of the process; exec does not drop mappings, and a fork from a process without mappings does not clear those of a reused number (both proved)."
  },
  {
   "property": "C34",
   "status": "proved",
   "theorems": [
    "Verif.Normalizer.buildId_precedence",
    "Verif.Normalizer.process_reports",
    "Verif.Normalizer.isKernelNonModuleName_iff"
   ],
   "note": "For build IDs without NUL; see C35 for those with one."
  },
  {
   "property": "C35",
   "status": "partial",
   "theorems": [
    "Verif.Normalizer.process_total_partial",
    "Verif.Normalizer.abort_wrap_violated",
    "Verif.Normalizer.abort_version_violated",
    "Verif.Normalizer.abort_buildId_violated"
   ],
   "note": "Characterised exactly: the normalizer finishes iff every mapping is non-empty and ends below 2^64, given a readable perf version and NUL-free build IDs. Each of the three conditions is needed (proved)."
  },
  {
   "property": "C36",
   "status": "partial",
   "theorems": [
    "Verif.Converter.accepted_samples_placed",
    "Verif.Converter.counts_and_weights_conserved_partial",
    "Verif.Converter.weight_violated"
   ],
   "note": "Counts are conserved for every history; weights when every period is below 2^63 (a larger one becomes negative, proved in weight_violated)."
  },
  {
   "property": "C37",
   "status": "partial",
   "theorems": [
    "Verif.Converter.merged_agree",
    "Verif.Converter.agreeing_merged",
    "Verif.Converter.merged_iff_partial",
    "Verif.Converter.labels_violated",
    "Verif.Converter.in_order_violated"
   ],
   "note": "Both directions, for numbers that fit their types and samples of which, for the labels asked for, none leaves out a number that is zero in another; a missing thread id is confused with id 0 (proved)."
  },
  {
   "property": "C38",
   "status": "partial",
   "theorems": [
    "Verif.Converter.profiles_in_order_partial",
    "Verif.Converter.sample_values_partial",
    "Verif.Converter.in_order_violated"
   ],
   "note": "Holds when profiles are grouped by process or process 0 never executes a program; otherwise references dangle (proved)."
  },
  {
   "property": "C39",
   "status": "partial",
   "theorems": [
    "Verif.Converter.sample_values_partial",
    "Verif.Converter.weight_violated"
   ],
   "note": "For periods below 2^63."
  },
  {
   "property": "C40",
   "status": "partial",
   "theorems": [
    "Verif.Converter.times_are_extrema_partial",
    "Verif.Converter.times_violated"
   ],
   "note": "For time stamps below 2^63."
  },
  {
   "property": "C41",
   "status": "partial",
   "theorems": [
    "Verif.Converter.stats_count_frames",
    "Verif.Converter.stats_sum_partial",
    "Verif.Converter.stats_ungrouped_violated",
    "Verif.Converter.stats_dataFrames_violated",
    "Verif.Converter.stats_exec_violated"
   ],
   "note": "What is counted is characterised for every history; the documented sum holds grouped by process, without data address frames and without exec, and fails in each other case (proved)."
  },
  {
   "property": "C42",
   "status": "partial",
   "theorems": [
    "Verif.Command.accepted_iff",
    "Verif.Command.banned_refused",
    "Verif.Command.only_sleep_partial",
    "Verif.Command.only_sleep_stat_partial",
    "Verif.Command.hidden_option_violated",
    "Verif.Command.hidden_program_violated"
   ],
   "note": "The accepted lines are characterised exactly. That perf reads them the same way holds if no option that takes a value is written with =; otherwise the word after it is never checked (proved)."
  },
  {
   "property": "C43",
   "status": "partial",
   "theorems": [
    "Verif.Attr.own_attribute",
    "Verif.Attr.accepted_iff",
    "Verif.Attr.only_attribute",
    "Verif.Attr.choice_safe",
    "Verif.Attr.choice_needs_attribute",
    "Verif.Attr.own_attribute_foreign_violated",
    "Verif.Attr.own_attribute_mixed_violated",
    "Verif.Attr.carries_info"
   ],
   "note": "For native byte order and attributes that agree on sample_id_all; violated otherwise (proved)."
  },
  {
   "property": "C44",
   "status": "partial",
   "theorems": [
    "Verif.Serial.serialize_partial",
    "Verif.Serial.deserialize_partial",
    "Verif.Serial.event_round_trip_partial",
    "Verif.Serial.message_round_trip_partial",
    "Verif.Serial.wire_injective",
    "Verif.Serial.aux_flags_violated",
    "Verif.Serial.behind_name_violated",
    "Verif.Serial.build_id_rest_violated",
    "Verif.Serial.bpf_keys_violated",
    "Verif.Serial.auxtrace_reserved_violated",
    "Verif.Serial.time_conv_violated",
    "Verif.Serial.branch_bits_violated",
    "Verif.Serial.lost_count_violated",
    "Verif.Serial.hw_idx_violated",
    "Verif.Serial.name_overflow_violated",
    "Verif.Attr.proto_round_trip_partial",
    "Verif.Attr.proto_round_trip_violated",
    "Verif.File.file_round_trip"
   ],
   "note": "For every supported event type, and every event that a message describes (Serial/Spec.lean: wire); the _violated theorems show events that are changed by the round trip because messages have no place for a part of them. Attributes: all but four flag bits."
  },
  {
   "property": "C45",
   "status": "partial",
   "theorems": [
    "Verif.Serial.event_size_partial",
    "Verif.Serial.data_size_partial",
    "Verif.Serial.msg_size_aligned",
    "Verif.Serial.msg_size_zero",
    "Verif.Serial.name_overflow_violated",
    "Verif.Event.eventDataSize_safe"
   ],
   "note": "For messages that are in order (Serial/Spec.lean: MsgOk) with attributes that agree on sample_id_all. A message that is not may be larger than its declared size (name_overflow_violated)."
  },
  {
   "property": "C46",
   "status": "partial",
   "theorems": [
    "Verif.Meta.section_accepted",
    "Verif.Meta.header_accepted",
    "Verif.Meta.sections_inside",
    "Verif.Meta.read_metadata_safe_partial",
    "Verif.Meta.endless_violated",
    "Verif.Meta.overrun_violated",
    "Verif.Data.section_tiled",
    "Verif.Data.section_safe_partial",
    "Verif.Data.section_safe_violated",
    "Verif.File.read_safe_partial",
    "Verif.File.read_endless_violated",
    "Verif.File.read_outside_violated",
    "Verif.Meta.build_id_inside",
    "Verif.Meta.build_ids_inside",
    "Verif.Meta.section_left"
   ],
   "note": "Metadata of files and their section headers. Files that claim a hybrid topology are excluded: a list of CPUs 0-4294967295 is read without end (proved)."
  },
  {
   "property": "C47",
   "status": "partial",
   "theorems": [
    "Verif.Normalizer.isDeleted_iff",
    "Verif.Normalizer.isVersioned_iff",
    "Verif.Normalizer.isDeleted_total_partial",
    "Verif.Normalizer.isDeleted_violated"
   ],
   "note": "The answer is characterised; for a name that ends in .so an exception is thrown (proved). The normalizer never asks for such a name."
  },
  {
   "property": "C48",
   "status": "partial",
   "theorems": [
    "Verif.File.file_size",
    "Verif.File.write_file",
    "Verif.File.write_pointer",
    "Verif.File.missing_trace_violated",
    "Verif.Meta.metadata_size",
    "Verif.Meta.metadata_fits",
    "Verif.Meta.missing_string_violated"
   ],
   "note": "For recordings that satisfy the conditions in File/Spec.lean (Complete): the bytes written are exactly those of the specified format, at the offsets of its header, and the announced size is that of the file plus the room for absent lists. Outside: a missing string is not counted, missing trace data abort (violated)."
  },
  {
   "property": "C49",
   "status": "proved",
   "theorems": [
    "Verif.Util.C49_roundtrip",
    "Verif.Util.C49_injective",
    "Verif.Util.C49_order"
   ],
   "note": ""
  },
  {
   "property": "C50",
   "status": "partial",
   "theorems": [
    "Verif.Names.table_spec",
    "Verif.Names.newEntry_ok",
    "Verif.Names.inject_ok_iff",
    "Verif.Names.inject_reported",
    "Verif.Names.inject_others",
    "Verif.Names.inject_entries",
    "Verif.Names.inject_malformed_violated",
    "Verif.Names.inject_failed_violated",
    "Verif.Names.inject_nul_violated",
    "Verif.Names.inject_frame"
   ],
   "note": "For tables of well-formed build IDs and names without NUL; otherwise see the three violations."
  },
  {
   "property": "C51",
   "status": "proved",
   "theorems": [
    "Verif.AddressMapper.C51_untouched_ranges_stay"
   ],
   "note": ""
  },
  {
   "property": "C52",
   "status": "proved",
   "theorems": [
    "Verif.AddressMapper.C52_copy"
   ],
   "note": ""
  },
  {
   "property": "C53",
   "status": "proved",
   "theorems": [
    "Verif.Text.C53_two_levels",
    "Verif.Text.C53_one_level",
    "Verif.Text.C53_root",
    "Verif.Text.C53_relative",
    "Verif.Text.C53_prefix"
   ],
   "note": ""
  },
  {
   "property": "C54",
   "status": "partial",
   "theorems": [
    "Verif.Text.C54_undefined_iff",
    "Verif.Text.C54_safe_partial",
    "Verif.Text.C54_safe_violated",
    "Verif.Text.C54_result"
   ],
   "note": "What is undefined is characterised for every text: only the conversion of a time that is not a number, infinite or enormous. With such a time the claim is false (witnesses proved)."
  },
  {
   "property": "C55",
   "status": "proved",
   "theorems": [
    "Verif.Builder.finalize_idempotent"
   ],
   "note": ""
  },
  {
   "property": "C56",
   "status": "proved",
   "theorems": [
    "Verif.Builder.addCallstack_eq"
   ],
   "note": ""
  },
  {
   "property": "C57",
   "status": "partial",
   "theorems": [
    "Verif.Builder.setDocURL_spec",
    "Verif.Builder.stringTable_nodup",
    "Verif.Builder.stringTable_nodup_violated"
   ],
   "note": "All but the last sentence: SetDocURL(\"\") appends a second empty string to the table (proved)."
  },
  {
   "property": "C58",
   "status": "partial",
   "theorems": [
    "Verif.Spe.nextRecord_complete_partial",
    "Verif.Spe.nextRecord_complete_violated"
   ],
   "note": "A record is closed by an end or timestamp packet or by the end of the trace; the latter case breaks the property (proved)."
  },
  {
   "property": "C59",
   "status": "partial",
   "theorems": [
    "Verif.Spe.nextRecord_align_partial",
    "Verif.Spe.nextRecord_align_violated",
    "Verif.Spe.decodeAll_encoded_base"
   ],
   "note": "The skip is right when the whole alignment fits; the bounds check is too strict and the skip depends on the address of the buffer (proved)."
  },
  {
   "property": "C60",
   "status": "partial",
   "theorems": [
    "Verif.Event.declared_entries_fit_partial",
    "Verif.Event.declared_entries_fit_violated"
   ],
   "note": "Holds unless count times entry size reaches 2^64; a BPF metadata event with 2^58 announced entries and none present is accepted (proved)."
  },
  {
   "property": "C61",
   "status": "proved",
   "theorems": [
    "Verif.Event.eventDataSize_string"
   ],
   "note": ""
  },
  {
   "property": "C62",
   "status": "partial",
   "theorems": [
    "Verif.Sample.write_inside_partial",
    "Verif.Sample.write_inside_violated"
   ],
   "note": "Holds for events with room for the predicted size; otherwise the writer runs past the event before it compares sizes (proved)."
  },
  {
   "property": "C63",
   "status": "proved",
   "theorems": [
    "Verif.HugePages.deduce_order"
   ],
   "note": ""
  },
  {
   "property": "C64",
   "status": "proved",
   "theorems": [
    "Verif.HugePages.deduce_fills"
   ],
   "note": ""
  },
  {
   "property": "C65",
   "status": "partial",
   "theorems": [
    "Verif.HugePages.combine_keeps_partial",
    "Verif.HugePages.combine_buildId_violated"
   ],
   "note": "False: adjacent pieces of two files of one name are merged and the build ID of the second is lost (proved). What is kept is in combine_keeps_partial."
  },
  {
   "property": "C66",
   "status": "partial",
   "theorems": [
    "Verif.HugePages.combine_moment_partial",
    "Verif.HugePages.combine_moment_violated"
   ],
   "note": "Holds when all mappings come first; a mapping merged into an earlier one takes effect before a sample that stands between them (proved)."
  },
  {
   "property": "C67",
   "status": "proved",
   "theorems": [
    "Verif.Normalizer.eventIndex_spec",
    "Verif.Normalizer.process_reports"
   ],
   "note": ""
  },
  {
   "property": "C68",
   "status": "partial",
   "theorems": [
    "Verif.Normalizer.process_reports",
    "Verif.Normalizer.lost_located_partial",
    "Verif.Normalizer.lost_located_violated"
   ],
   "note": "The name and the number are right; the address is in the mapping unless a process named [lost] was given a fake mapping first (proved)."
  },
  {
   "property": "C69",
   "status": "proved",
   "theorems": [
    "Verif.Normalizer.process_main",
    "Verif.Normalizer.canBeMain_iff"
   ],
   "note": ""
  },
  {
   "property": "C70",
   "status": "proved",
   "theorems": [
    "Verif.Normalizer.config_spec",
    "Verif.Normalizer.useLostSample_spec",
    "Verif.Normalizer.process_reports"
   ],
   "note": "Version strings whose numbers reach 2^31 abort: see C35."
  },
  {
   "property": "C71",
   "status": "proved",
   "theorems": [
    "Verif.Converter.stack_shown"
   ],
   "note": ""
  },
  {
   "property": "C72",
   "status": "partial",
   "theorems": [
    "Verif.Converter.labels_shown_partial",
    "Verif.Converter.labels_violated"
   ],
   "note": "For numbers that fit their types and samples of which, for the labels asked for, none leaves out a number that is zero in another."
  },
  {
   "property": "C73",
   "status": "proved",
   "theorems": [
    "Verif.Converter.one_profile",
    "Verif.Converter.profiles_by_process"
   ],
   "note": ""
  },
  {
   "property": "C74",
   "status": "proved",
   "theorems": [
    "Verif.Converter.mappings_shown",
    "Verif.Converter.kernel_remap_violated",
    "Verif.Converter.stale_kernel_violated"
   ],
   "note": "The two violations show that the stronger reading, the mapping of this very sample, fails: new mappings of the kernel do not invalidate cached frames of processes."
  },
  {
   "property": "C75",
   "status": "proved",
   "theorems": [
    "Verif.Converter.types_and_comments"
   ],
   "note": ""
  },
  {
   "property": "C76",
   "status": "proved",
   "theorems": [
    "Verif.Converter.first_mapping_is_main"
   ],
   "note": ""
  },
  {
   "property": "C77",
   "status": "partial",
   "theorems": [
    "Verif.Converter.converts_all_partial",
    "Verif.Converter.proto_converts_partial",
    "Verif.Converter.abort_location_violated",
    "Verif.Converter.abort_overflow_violated",
    "Verif.Converter.abort_named_lost_violated",
    "Verif.Converter.in_order_violated"
   ],
   "note": "Under the listed conditions on recording and options; each violation is a concrete abort."
  },
  {
   "property": "C78",
   "status": "proved",
   "theorems": [
    "Verif.Converter.valid_iff",
    "Verif.Converter.valid_violated"
   ],
   "note": "valid_violated: events of the same name make a profile that fails the check and is handed out all the same."
  },
  {
   "property": "C79",
   "status": "proved",
   "theorems": [
    "Verif.Converter.addresses_in_mappings",
    "Verif.Converter.abort_named_lost_violated"
   ],
   "note": ""
  },
  {
   "property": "C80",
   "status": "proved",
   "theorems": [
    "Verif.Converter.main_mapping_checked"
   ],
   "note": ""
  },
  {
   "property": "C81",
   "status": "proved",
   "theorems": [
    "Verif.Parser.samples_reported",
    "Verif.Parser.others_silent",
    "Verif.Parser.newest_mapping",
    "Verif.Parser.kernel_shared",
    "Verif.Parser.request_plain"
   ],
   "note": ""
  },
  {
   "property": "C82",
   "status": "proved",
   "theorems": [
    "Verif.Parser.events_kept"
   ],
   "note": ""
  },
  {
   "property": "C83",
   "status": "proved",
   "theorems": [
    "Verif.Parser.unchanged_without_remap",
    "Verif.Parser.parse_keep"
   ],
   "note": ""
  },
  {
   "property": "C84",
   "status": "proved",
   "theorems": [
    "Verif.Parser.discard_drops_unused"
   ],
   "note": "With events of unknown types see C87."
  },
  {
   "property": "C85",
   "status": "proved",
   "theorems": [
    "Verif.Parser.counters"
   ],
   "note": ""
  },
  {
   "property": "C86",
   "status": "partial",
   "theorems": [
    "Verif.Parser.fails_iff_refused",
    "Verif.Parser.refused_iff",
    "Verif.Parser.abort_violated"
   ],
   "note": "The exact condition is proved; the plain reading, no abort, is violated."
  },
  {
   "property": "C87",
   "status": "partial",
   "theorems": [
    "Verif.Parser.unknown_stops",
    "Verif.Parser.unknown_leaks_violated"
   ],
   "note": "Violated: nothing after such an event is processed; what happens instead is proved."
  },
  {
   "property": "C88",
   "status": "proved",
   "theorems": [
    "Verif.Parser.sample_translated",
    "Verif.Parser.mapping_moved"
   ],
   "note": ""
  },
  {
   "property": "C89",
   "status": "partial",
   "theorems": [
    "Verif.Parser.remap_keeps_meaning_partial",
    "Verif.Parser.remap_overlap_violated",
    "Verif.Parser.remap_zero_violated"
   ],
   "note": "For recordings whose mappings do not overlap within a process; violated otherwise."
  },
  {
   "property": "C90",
   "status": "proved",
   "theorems": [
    "Verif.Command.runs",
    "Verif.Command.record_runs",
    "Verif.Command.inject_runs",
    "Verif.Command.stat_runs",
    "Verif.Command.refused_runs_nothing"
   ],
   "note": ""
  },
  {
   "property": "C91",
   "status": "partial",
   "theorems": [
    "Verif.Command.etm_needs_inject_partial",
    "Verif.Command.etm_violated"
   ],
   "note": "For events given with -e and no value equal to -e; --event is not looked at (proved)."
  },
  {
   "property": "C92",
   "status": "partial",
   "theorems": [
    "Verif.Command.stat_line_partial",
    "Verif.Command.stat_line_violated"
   ],
   "note": "If no word given is -o, which is allowed as a value; else the temporary file name is stored and a word is lost (proved)."
  },
  {
   "property": "C93",
   "status": "partial",
   "theorems": [
    "Verif.Names.localized",
    "Verif.Names.localized_ids",
    "Verif.Names.localize_other_violated"
   ],
   "note": "What is renamed is characterised exactly; the reading joined on build IDs is violated."
  },
  {
   "property": "C94",
   "status": "proved",
   "theorems": [
    "Verif.Names.alternates",
    "Verif.Names.alternates_others",
    "Verif.Names.alternates_reported"
   ],
   "note": "The order of alternatives of one name is that of the list; the code leaves it unspecified."
  },
  {
   "property": "C95",
   "status": "proved",
   "theorems": [
    "Verif.Names.filenames_spec"
   ],
   "note": ""
  },
  {
   "property": "C96",
   "status": "partial",
   "theorems": [
    "Verif.Names.hash_partial",
    "Verif.Names.hash_violated"
   ],
   "note": "Injection and sorting keep the hashes right. Violated for every renaming between names with different hashes."
  },
  {
   "property": "C97",
   "status": "partial",
   "theorems": [
    "Verif.Attr.read_attr",
    "Verif.Attr.read_attr_short",
    "Verif.Attr.read_attr_safe",
    "Verif.Attr.read_attr_foreign_partial",
    "Verif.Attr.read_attr_foreign_violated",
    "Verif.Attr.proto_round_trip_partial",
    "Verif.Attr.proto_attr_round_trip_partial",
    "Verif.Attr.proto_round_trip_violated",
    "Verif.Attr.proto_members",
    "Verif.Attr.freq_stored_violated",
    "Verif.Attr.freq_read_violated",
    "Verif.Attr.read_ids"
   ],
   "note": "Foreign attributes: all but the type, which is swapped twice. Messages: all but four flag bits; the frequency is stored as a period."
  },
  {
   "property": "C98",
   "status": "partial",
   "theorems": [
    "Verif.Data.skipping_filters_partial",
    "Verif.Data.callback_samples",
    "Verif.Data.skipping_filters_violated"
   ],
   "note": "For all types but data of tracing units (71), for which the claim is violated: the data behind the record are read as records."
  },
  {
   "property": "C99",
   "status": "partial",
   "theorems": [
    "Verif.File.file_round_trip",
    "Verif.File.file_round_trip_exact",
    "Verif.File.read_image",
    "Verif.File.complete_again",
    "Verif.File.again_stable",
    "Verif.File.again_grows_violated",
    "Verif.File.timed_out_violated",
    "Verif.File.names_lost_violated",
    "Verif.File.features_named"
   ],
   "note": "For recordings that satisfy the conditions in File/Spec.lean (Complete). Outside of them mappings that timed out and names of events are lost, and build IDs of mappings are listed twice after two trips (violated)."
  },
  {
   "property": "C100",
   "status": "partial",
   "theorems": [
    "Verif.File.pipe_as_file",
    "Verif.File.read_pipe",
    "Verif.File.pipe_rest_violated",
    "Verif.File.pipe_empty_violated"
   ],
   "note": "For recordings whose records fit into 65535 bytes, in the order features, attributes, tracing data, build IDs, events (File/PipeSpec.lean). Bytes behind the ids of an attribute that are no multiple of 8 are read as the next record (violated)."
  },
  {
   "property": "C101",
   "status": "partial",
   "theorems": [
    "Verif.File.read_safe_partial",
    "Verif.File.read_endless_violated",
    "Verif.File.read_outside_violated",
    "Verif.File.short_feature_refused"
   ],
   "note": "Unless the bytes contain a list of CPUs that is parsed without end or a record of BPF metadata at some position; for these the claim is violated (proved). Memory exhaustion is not modelled."
  },
  {
   "property": "C102",
   "status": "partial",
   "theorems": [
    "Verif.File.foreign_section_partial",
    "Verif.File.foreign_ksymbol_violated",
    "Verif.File.foreign_cgroup_violated",
    "Verif.File.foreign_features_violated",
    "Verif.Attr.own_attribute_foreign_violated",
    "Verif.Attr.read_attr_foreign_violated"
   ],
   "note": "For recordings with one attribute whose events carry no ids, and samples without branch entries and structured weights (File/ForeignSpec.lean). Violated (proved) for kernel symbols, control groups, the features of a file, types of attributes, and ids."
  },
  {
   "property": "C103",
   "status": "proved",
   "theorems": [
    "Verif.File.old_as_new",
    "Verif.File.old_pipe_as_new",
    "Verif.File.read_old",
    "Verif.File.read_old_pipe"
   ],
   "note": "For data in memory of this machine (File/OldSpec.lean)."
  },
  {
   "property": "C104",
   "status": "partial",
   "theorems": [
    "Verif.File.file_names_match",
    "Verif.File.pipe_names_violated"
   ],
   "note": "Proved for all files. Violated (proved) for pipes with a description of the events and records with names."
  },
  {
   "property": "C105",
   "status": "partial",
   "theorems": [
    "Verif.Whole.samples_counted_partial",
    "Verif.Converter.weight_violated"
   ],
   "note": "Counts: all recordings that are converted. Weights: if all periods are below 2^63 (see weight_violated for why)."
  },
  {
   "property": "C106",
   "status": "proved",
   "theorems": [
    "Verif.Whole.pipe_profiles",
    "Verif.Whole.old_profiles",
    "Verif.Whole.old_pipe_profiles",
    "Verif.Whole.written_profiles"
   ],
   "note": "For recordings that the forms can hold (File/Spec.lean, PipeSpec.lean, OldSpec.lean)."
  },
  {
   "property": "C107",
   "status": "partial",
   "theorems": [
    "Verif.Whole.order_irrelevant_partial",
    "Verif.Whole.order_matters_violated"
   ],
   "note": "If mappings have no build IDs and none are given, or the mappings keep their order. Otherwise violated (proved): a mapping without a build ID gets the one that stands first in the file."
  },
  {
   "property": "C108",
   "status": "partial",
   "theorems": [
    "Verif.Whole.frames_located_partial",
    "Verif.Whole.frames_located_violated",
    "Verif.Whole.lost_name_aborts_violated"
   ],
   "note": "If no process is called [lost], and there is one profile per process or process 0 is not named (Whole/Props3.lean: Calm). Outside: with one profile for all, naming process 0 makes samples refer to locations of another profile (proved)."
  },
  {
   "property": "C109",
   "status": "partial",
   "theorems": [
    "Verif.Whole.sample_shown_partial",
    "Verif.Whole.sample_shown_merged_violated"
   ],
   "note": "For recordings whose mappings have names unless they are not at 0x400000, none that of a huge page, none continuing another (Whole/Settle.lean: Steady), with no trace data of ARM SPE and Calm (C108). Whole/StackSpec.lean tells the stack, the mappings and the order of records from the records alone. As in C33 an exec does not drop mappings, and a frame may show the mapping of an earlier sample with the same address. The frames of lost samples are not told apart at their reserved address. Outside: mappings that continue another are shown as one (proved)."
  },
  {
   "property": "C110",
   "status": "partial",
   "theorems": [
    "Verif.Whole.converts_partial",
    "Verif.Whole.converts_empty_violated",
    "Verif.Whole.converts_cut_violated",
    "Verif.Whole.converts_end_violated",
    "Verif.Whole.converts_option_violated",
    "Verif.Whole.converts_jit",
    "Verif.Whole.lost_name_aborts_violated"
   ],
   "note": "For all bytes whose recording is Convertible (Whole/Props5.lean, Tidy.lean, Props3.lean: Calm), without the option to fail when the main mapping changes. For mappings of length 0, mappings that cut another within a page, mappings up to the end of memory, that option, and a process called [lost] an abort is proved."
  },
  {
   "property": "C111",
   "status": "partial",
   "theorems": [
    "Verif.Whole.build_ids_shown_partial",
    "Verif.Whole.build_ids_malformed_violated",
    "Verif.Whole.build_ids_kernel_violated",
    "Verif.Whole.recording_pictured_partial"
   ],
   "note": "Under the conditions of C109 (those of C137 for mappings in pieces or huge pages and SPE traces) and for given build IDs that are digits for whole bytes. Outside: a given build ID of a file that is not in the recording is shown for a mapping of the kernel without one (proved); a given text that is no build ID is shown up to the first character that is not a digit (proved)."
  },
  {
   "property": "C112",
   "status": "partial",
   "theorems": [
    "Verif.Whole.labels_shown_partial",
    "Verif.Whole.labels_latency_violated",
    "Verif.Whole.labels_time_violated"
   ],
   "note": "For recordings whose samples are alike (Whole/LabelSpec.lean: Alike; for the labels asked for, none leaves out a process, thread, time or CPU that is zero in another, and the numbers fit), Calm (C108), and without trace data of ARM SPE. Whole/LabelSpec.lean tells the labels from the records alone. Outside: weights of 2^32 and more are cut and times of 2^63 and more are shown as negative (proved)."
  },
  {
   "property": "C113",
   "status": "partial",
   "theorems": [
    "Verif.Whole.unreadable_none",
    "Verif.Whole.profiles_made_partial",
    "Verif.Whole.process_profile_partial",
    "Verif.Whole.profiles_made_violated"
   ],
   "note": "For recordings that are Calm (C108), with or without trace data of ARM SPE, whose records count as samples. Outside: if process 0 is named between samples there are two profiles though one was asked for (proved)."
  },
  {
   "property": "C114",
   "status": "partial",
   "theorems": [
    "Verif.Tool.encoded_is_message",
    "Verif.Tool.recording_not_message",
    "Verif.Tool.foreign_not_message_partial",
    "Verif.Tool.foreign_message_violated"
   ],
   "note": "Which bytes ParseFromArray accepts is modelled after the encoding of proto2 (Tool/Wire.lean). Proved for all recordings of machines that store the lowest byte first, and for those of other machines whose byte 71 is zero, as it is in files without a table of event types. Outside: a recording of another machine that can be read but is taken for a message (proved)."
  },
  {
   "property": "C115",
   "status": "proved",
   "theorems": [
    "Verif.Tool.arguments_meaning"
   ],
   "note": "getopt as in the GNU C library, without POSIXLY_CORRECT."
  },
  {
   "property": "C116",
   "status": "partial",
   "theorems": [
    "Verif.Tool.tool_succeeds",
    "Verif.Tool.tool_output",
    "Verif.Tool.tool_failure_keeps",
    "Verif.Tool.tool_only_output",
    "Verif.Tool.tool_keeps_existing",
    "Verif.Tool.recording_converted",
    "Verif.Tool.tool_converts_partial",
    "Verif.Tool.tool_no_samples",
    "Verif.Tool.tool_unreadable",
    "Verif.Tool.tool_full_violated"
   ],
   "note": "What is made of an accepted message and how a profile is encoded are left open (Tool/Model.lean: Library). That a recording with a sample gives a profile is proved for those of C110. Outside: if the disk is full, success is reported and the output is cut (proved)."
  },
  {
   "property": "C117",
   "status": "partial",
   "theorems": [
    "Verif.Tool.message_made",
    "Verif.Tool.message_refused",
    "Verif.Tool.message_keeps",
    "Verif.Tool.message_round_trip",
    "Verif.Tool.counters_kept_partial",
    "Verif.Tool.options_meaning",
    "Verif.Tool.counters_lost_violated",
    "Verif.Tool.options_default_violated",
    "Verif.Tool.address_invented_violated"
   ],
   "note": "Violated: the counters of names, kernel symbols and data addresses are lost; an options message that does not name sort_events_by_time turns sorting off, while it is on otherwise; a sample without an address gets the address 0. What events become with remapping or discarding is in C29-C31 only."
  },
  {
   "property": "C118",
   "status": "partial",
   "theorems": [
    "Verif.Tool.message_counts",
    "Verif.Tool.mapped_le",
    "Verif.Tool.message_counts_any_partial",
    "Verif.Tool.mapped_le_any",
    "Verif.Tool.mapped_cut_violated",
    "Verif.Tool.mappings_joined_violated"
   ],
   "note": "message_counts: recordings in which huge pages and split mappings do not occur, or with both options off. message_counts_any_partial: any recording whose mappings are in order; which huge pages are renamed is told by the bounds of C129 only. Violated: mappings are counted after pieces were put together, so three of a recording count as one. Violated: a mapping that covers only the end or the beginning of an older one removes all of that one, so addresses in what should remain are not counted as mapped (see C04)."
  },
  {
   "property": "C119",
   "status": "proved",
   "theorems": [
    "Verif.Tool.converter_arguments",
    "Verif.Tool.input_formats"
   ],
   "note": "getopt as in the GNU C library, without POSIXLY_CORRECT."
  },
  {
   "property": "C120",
   "status": "partial",
   "theorems": [
    "Verif.Tool.converter_success",
    "Verif.Tool.converter_failure_keeps",
    "Verif.Tool.converter_only_output",
    "Verif.Tool.converter_message",
    "Verif.Tool.converter_via",
    "Verif.Tool.converter_full_violated"
   ],
   "note": "How messages are written as text or bytes is left open; for the way by a message it is assumed that the message is read as it was written. That way is proved for the recordings of C117. Violated: if the disk is full the last block is lost and success is reported, or the program is aborted and leaves a part."
  },
  {
   "property": "C121",
   "status": "partial",
   "theorems": [
    "Verif.Disk.file_as_buffer",
    "Verif.Disk.whole_file",
    "Verif.Disk.pipe_violated"
   ],
   "note": "Violated for inputs without positions (a pipe): FileToBuffer ends the program instead of returning false."
  },
  {
   "property": "C122",
   "status": "partial",
   "theorems": [
    "Verif.Disk.module_build_id",
    "Verif.Disk.module_build_id_partial",
    "Verif.Disk.module_safe",
    "Verif.Disk.elf_build_id",
    "Verif.Disk.module_padding_violated"
   ],
   "note": "libelf is what gives sections and notes of a file. Violated: a build ID of a module whose size is no multiple of four gets zeros at its end, that of an ELF file does not."
  },
  {
   "property": "C123",
   "status": "partial",
   "theorems": [
    "Verif.Disk.descriptors_partial",
    "Verif.Disk.descriptors_stay",
    "Verif.Disk.descriptors_violated"
   ],
   "note": "Violated if libelf refuses the file: its descriptor is closed twice, so one that another thread opened in between is closed."
  },
  {
   "property": "C124",
   "status": "partial",
   "theorems": [
    "Verif.Run.command_ran",
    "Verif.Run.command_missing_partial",
    "Verif.Run.status_partial",
    "Verif.Run.descriptor_left_violated",
    "Verif.Run.daemon_violated",
    "Verif.Run.status_violated",
    "Verif.Run.fork_violated"
   ],
   "note": "The kernel is modelled as far as descriptors go. Violated: a descriptor stays open if a command whose output is wanted cannot be run; a program without standard output and error gets what the command writes to its standard error; a killed command gives another status than -1; without a process left the program ends."
  },
  {
   "property": "C125",
   "status": "partial",
   "theorems": [
    "Verif.Run.program_survives",
    "Verif.Run.ignored_after",
    "Verif.Run.interrupt_reaches_partial",
    "Verif.Run.interrupt_lost_violated",
    "Verif.Run.second_violated",
    "Verif.Run.second_never"
   ],
   "note": "Proved for all interleavings in which the child gets its group before interrupts are let through. Violated otherwise, and for every command after the first one, because interrupts stay ignored."
  },
  {
   "property": "C126",
   "status": "partial",
   "theorems": [
    "Verif.Run.quipper_asked",
    "Verif.Run.quipper_commands",
    "Verif.Run.quipper_success",
    "Verif.Run.quipper_keeps",
    "Verif.Run.seconds_read",
    "Verif.Run.seconds_kept",
    "Verif.Run.seconds_violated",
    "Verif.Run.flags_violated",
    "Verif.Run.path_refused"
   ],
   "note": "What perf leaves behind and what is made of it are inputs. Violated: text is accepted for the number of seconds; flags are misread if the line has perf in it."
  },
  {
   "property": "C127",
   "status": "proved",
   "theorems": [
    "Verif.Run.temp_removed",
    "Verif.Run.temp_gone",
    "Verif.Run.temp_traceless",
    "Verif.Run.temp_none"
   ],
   "note": "nftw of the C library is modelled as documented; nobody else changes the directory while it is removed."
  },
  {
   "property": "C128",
   "status": "partial",
   "theorems": [
    "Verif.Whole.pieces_shown_partial",
    "Verif.Whole.pieces_area",
    "Verif.Whole.pieces_fork_violated",
    "Verif.Whole.pieces_later_violated"
   ],
   "note": "Huge pages and mappings at 0x400000 without a name are excluded; SPE traces and labels are in C137. Joining is wrong for processes forked between two pieces (pieces_fork_violated), and for samples between them the later extent is shown (pieces_later_violated)."
  },
  {
   "property": "C129",
   "status": "partial",
   "theorems": [
    "Verif.Whole.huge_shown_partial",
    "Verif.Whole.huge_later_violated",
    "Verif.Whole.huge_start_violated",
    "Verif.Whole.unnamed_load_violated"
   ],
   "note": "Processes with both a mapping without a name and one at 0x400000 are excluded: there the former is shown under the name of a file mapped behind it (unnamed_load_violated). SPE traces and labels are in C137. Which huge pages are renamed is told by two bounds (Closed, Still), not exactly. Huge pages of files that are mapped while perf runs are shown as anonymous memory (huge_later_violated), and memory before a mapping of a file may be taken for its start (huge_start_violated)."
  },
  {
   "property": "C130",
   "status": "partial",
   "theorems": [
    "Verif.Whole.values_titled_partial",
    "Verif.Whole.profile_valid_partial",
    "Verif.Whole.profile_valid_violated"
   ],
   "note": "For recordings that are Calm (C108) and profiles with fewer than 2^31 texts. profile_valid_violated: if events have the same name, an invalid profile is handed out."
  },
  {
   "property": "C131",
   "status": "partial",
   "theorems": [
    "Verif.Whole.profiles_tell_partial",
    "Verif.Whole.profiles_tell_steady_partial",
    "Verif.Whole.tell_remapped_apart",
    "Verif.Whole.tell_executed_apart"
   ],
   "note": "Excluded: processes with both a mapping without a name and one at 0x400000 (C129), samples that differ in their optional fields or whose numbers do not fit (C112), samples at the address kept for lost ones, a process named [lost] (Calm), SPE traces. The two theorems on samples apart show that the conditions for sharing a place are needed."
  },
  {
   "property": "C132",
   "status": "partial",
   "theorems": [
    "Verif.Text.seconds_fit",
    "Verif.Text.seconds_nearest",
    "Verif.Text.seconds_exact",
    "Verif.Text.seconds_nanoseconds",
    "Verif.Text.seconds_ordered",
    "Verif.Text.seconds_negative",
    "Verif.Text.seconds_trailing",
    "Verif.Text.seconds_exact_violated",
    "Verif.Text.seconds_half_violated",
    "Verif.Text.seconds_form_violated",
    "Verif.Text.seconds_undefined_violated"
   ],
   "note": "For decimal texts everything is proved, with the exact limit up to which the result is defined and a bound on the error; whole milliseconds are exact below 2^50 of them and not always above (proved). That all other texts are refused is false (witnesses proved), and for some of them the behaviour is undefined (proved)."
  },
  {
   "property": "C133",
   "status": "partial",
   "theorems": [
    "Verif.Text.stat_output",
    "Verif.Text.stat_zero",
    "Verif.Text.stat_count_violated"
   ],
   "note": "For times of whole milliseconds below 2^50. Counts that are missing, negative or too large are taken as well (proved), and a time of zero is not given to the counters (proved)."
  },
  {
   "property": "C134",
   "status": "partial",
   "theorems": [
    "Verif.Normalizer.warnings_due_partial",
    "Verif.Normalizer.warnings_safe_violated",
    "Verif.Normalizer.warnings_chain_violated"
   ],
   "note": "For recordings with fewer than about 2^56 samples, lost ones included, exactly the due warnings are logged, with one change: what is counted for call chains is their context markers, not the frames without mapping (proved). Beyond that the percentage overflows, which a single record can bring about (proved)."
  },
  {
   "property": "C135",
   "status": "partial",
   "theorems": [
    "Verif.Whole.shot_shown_partial",
    "Verif.Whole.traced_shown_partial",
    "Verif.Whole.traceRecords_encoded",
    "Verif.Whole.trace_unstamped",
    "Verif.Whole.traced_untimed",
    "Verif.Whole.traced_mapped_violated",
    "Verif.Whole.traced_thread_violated"
   ],
   "note": "Proved from the bytes for all traces, with the mapping looked up among the records that come before the trace once they are in order of time, or held from an earlier sample. Two parts fail and have counterexamples: trace data has no time and is looked at before all records that have one (trace_unstamped, traced_untimed), so mappings made while recording are not found (traced_mapped_violated); and a thread number used again is charged to its last process (traced_thread_violated). Mappings without names, huge pages and continued mappings are excluded as in C109."
  },
  {
   "property": "C136",
   "status": "partial",
   "theorems": [
    "Verif.Whole.traced_labelled_partial",
    "Verif.Whole.sample_labelled_partial",
    "Verif.Whole.traced_cpu_violated",
    "Verif.Whole.traced_named_violated"
   ],
   "note": "Proved from the bytes for all traces and all samples in one recording, for Steady and Calm recordings (C109) whose samples are set apart from records of traces (SetApart, in Whole/TraceLabels.lean: process and thread told, time and CPU not zero, if the labels are asked for, and the numbers fit). The profile sample that has the labels is the one that shows the stack. Outside: a sample on CPU 0 and a record of a trace, which has no CPU, are put together and the label is lost (traced_cpu_violated). Names given while recording are not shown with records of traces (traced_named_violated)."
  },
  {
   "property": "C137",
   "status": "partial",
   "theorems": [
    "Verif.Whole.pieces_pictured_partial",
    "Verif.Whole.recording_pictured_partial",
    "Verif.Whole.home_kept",
    "Verif.Whole.huge_later_violated",
    "Verif.Whole.traced_cpu_violated",
    "Verif.Whole.traced_mapped_violated"
   ],
   "note": "Proved from the bytes for all recordings without processes that have both a mapping without a name and one at 0x400000 (C129), that are Calm (C108) and SetApart (C136); Whole/Picture.lean: Pictures says what is shown. Which huge pages are renamed is told by two bounds, as in C129. Outside: huge pages mapped while perf runs are not named (C129), mappings made while recording are not found by traces (C135), and a sample on CPU 0 is put together with a record of a trace (C136), all proved."
  },
  {
   "property": "C138",
   "status": "proved",
   "theorems": [
    "Verif.Missing.missing_message",
    "Verif.Missing.missing_discard",
    "Verif.Missing.fill_spec",
    "Verif.Missing.found",
    "Verif.Missing.threads_in",
    "Verif.Missing.walked",
    "Verif.Missing.find_total",
    "Verif.Missing.neat_from",
    "Verif.Missing.prepared_neat"
   ],
   "note": "Missing/Spec.lean says what is looked for where (Finds). The files noted for addresses are those of the parser (C37-C39). That names are without NUL and numbers of threads below 2^32 is proved of all recordings read from bytes (neat_from, prepared_neat). Libelf is a parameter (C122 is about what is made of its sections), and so is the file system, which does not change meanwhile. fstat does not fail."
  },
  {
   "property": "C139",
   "status": "partial",
   "theorems": [
    "Verif.Missing.mapped_file_partial",
    "Verif.Missing.identity_unique",
    "Verif.Missing.device_zero_violated",
    "Verif.Missing.containers_violated",
    "Verif.Missing.told_violated"
   ],
   "note": "Proved for names the first mapping of which tells a device with both numbers not zero: the file has that device and inode. Fails otherwise: if the major or minor number is zero, as on btrfs, overlays and NFS, any file of the name is taken (device_zero_violated), and so it is for mappings with build IDs told by the kernel, which are then replaced (told_violated); only the first mapping of a name counts, so processes in other containers get the build ID of another file, or none (containers_violated)."
  },
  {
   "property": "C140",
   "status": "proved",
   "theorems": [
    "Verif.AddressMapper.C140_hidden",
    "Verif.AddressMapper.C140_anywhere",
    "Verif.AddressMapper.C140_page_told",
    "Verif.AddressMapper.C140_meeting_told"
   ],
   "note": "Two runs on a fresh mapper, by a simulation in which both hold the same things at different places. C140_page_told and C140_meeting_told show that what is asked of the moves is needed. Ranges that end exactly at 2^64 and an exhausted made-up space are left out, as in C03."
  },
  {
   "property": "C141",
   "status": "proved",
   "theorems": [
    "Verif.Parser.C141_hidden",
    "Verif.Parser.C141_unmapped_told",
    "Verif.Parser.C141_branches_told",
    "Verif.Parser.C141_plain_told",
    "Verif.Parser.C141_kernel_told"
   ],
   "note": "Two runs of the parser in lockstep; every mapper of one holds the same things at other places than that of the other (C140). The last four theorems show what can be told: addresses in no mapping, badly ordered branches, everything without remapping, and the place of a kernel whose first mapping begins below its offset."
  },
  {
   "property": "C142",
   "status": "proved",
   "theorems": [
    "Verif.Parser.C142_alone",
    "Verif.Parser.C142_parent_told",
    "Verif.Parser.C142_discard_told"
   ],
   "note": "Two runs of the parser in lockstep; their tables agree on the processes in the set. The other theorems show that the parents have to be the same, and that with the discard option the samples of a child do influence which mappings of its parent are kept. Mappings of the kernel have to be the same in both, as the first is normalised."
  }
 ]
}