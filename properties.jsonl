{"id": "C01", "title": "IntervalMap: last write wins", "statement": "After any sequence of Set, ClearInterval and Clear calls, Lookup(k) yields exactly the value given by the most recent call that touched k: the Set value if it was a Set, nothing if it was a clear or if no call ever touched k.", "quantifier": "all operation sequences of any length, all keys, all values", "why_tests_cant": "The result depends on how every earlier interval was split, trimmed or dropped; the number of histories is unbounded.", "anchors": ["src/intervalmap.h: IntervalMap::Set, Lookup, Clear, ClearInterval, RemoveInterval, Split, Insert"]}
{"id": "C02", "title": "IntervalMap: intervals stay disjoint and FindNext returns the right one", "statement": "After any operation sequence the stored intervals are non-empty, sorted and pairwise disjoint, and Size is their number. FindNext(k) returns the interval containing k if there is one, and otherwise the first interval after k, as the header promises.", "quantifier": "all operation sequences, all query keys", "why_tests_cant": "Disjointness is an invariant over unbounded histories, and the FindNext contract quantifies over every key including boundaries.", "anchors": ["src/intervalmap.h: IntervalMap::FindNext, Size, Set"]}
{"id": "C03", "title": "AddressMapper: remapping is injective and keeps distances inside a range", "statement": "After any sequence of mapping requests, two different real addresses that both translate never translate to the same address, and addresses of one surviving piece keep their distance.", "quantifier": "all sequences of MapWithID calls with ranges ending below 2^64, all pairs of 64-bit addresses", "why_tests_cant": "Overlaps, splits and gap reuse interact over unbounded histories; a collision needs a specific history.", "anchors": ["src/quipper/address_mapper.cc: AddressMapper::MapWithIDInternal, Unmap, GetMappedAddress"]}
{"id": "C04", "title": "AddressMapper: newest mapping wins, with continuous offsets", "statement": "After any sequence of mapping requests, an address that translates reports the id and the offset (a - start + offset_base) of the most recent accepted request whose range contains it, even when that request was since split by a smaller one. A request that lies properly inside an older range splits it; a request that overlaps an older range in any other way drops the older range entirely; addresses in no surviving piece are reported unmapped.", "quantifier": "all sequences of MapWithID calls with ranges not ending exactly at 2^64 and enough remapped space, all page alignments, all 64-bit addresses", "why_tests_cant": "The offset of a split tail depends on the whole history of the range.", "anchors": ["src/quipper/address_mapper.cc: MapWithIDInternal, GetMappedAddressIDAndOffset, GetRangeContainingAddress"]}
{"id": "C05", "title": "AddressMapper: page offset of addresses is preserved", "statement": "With a non-zero page alignment, the remapped address of every translated address has the same offset inside its page as the real address.", "quantifier": "all histories, all power-of-two alignments, all addresses", "why_tests_cant": "Quantifies over every alignment, history and gap choice.", "anchors": ["src/quipper/address_mapper.cc: MapWithIDInternal", "src/quipper/address_mapper.h: GetAlignedOffset"]}
{"id": "C06", "title": "AddressMapper: a failed request changes nothing", "statement": "When a mapping request is refused, every address translates exactly as before the request.", "quantifier": "all states, all requests that return false", "why_tests_cant": "Failure paths deep in the split logic depend on the state of the whole address space.", "anchors": ["src/quipper/address_mapper.cc: MapWithIDInternal"]}
{"id": "C07", "title": "Profile builder: string table interning", "statement": "StringId returns 0 exactly for the empty string, returns equal ids exactly for equal strings, and an id stays valid: after any later calls the string table entry at that id is still that string. The table is the empty string followed by the distinct requested strings in order of first request, so it has no duplicates (unless SetDocURL is given the empty URL, see C57).", "quantifier": "all sequences of StringId, FunctionId and SetDocURL calls, all strings", "why_tests_cant": "A claim about every pair of calls in every history.", "anchors": ["src/builder.cc: Builder::StringId, InternalStringId"]}
{"id": "C08", "title": "Profile builder: function interning", "statement": "FunctionId returns equal ids exactly for equal (name, system name, file, line) tuples, ids are 1,2,3,... in creation order, each id names exactly one function record in the profile and the record resolves to the tuple.", "quantifier": "all sequences of calls, all tuples", "why_tests_cant": "A claim about every pair of calls in every history.", "anchors": ["src/builder.cc: Builder::FunctionId"]}
{"id": "C09", "title": "Profile validity check accepts exactly valid profiles", "statement": "CheckValid returns true exactly when: non-zero ids of mappings, of functions and of locations are unique; every non-zero mapping and function reference resolves; every sample location id is non-zero and resolves; there is a sample type and sample types are unique; the default sample type is a positive index into the string table and is one of the sample types; every sample has one value per sample type; no label carries both a string and a number.", "quantifier": "all profiles whose sample type indices fit in an int", "why_tests_cant": "Both directions over all profiles.", "anchors": ["src/builder.cc: Builder::CheckValid"]}
{"id": "C10", "title": "Finalize: raw addresses become locations without losing order or identity", "statement": "Finalizing a profile whose samples hold raw addresses gives each distinct address one location, numbered 1..n in order of first use; every sample's location list resolves to its original address list.", "quantifier": "all sample lists of any length", "why_tests_cant": "Injectivity and order must hold for every list.", "anchors": ["src/builder.cc: Builder::Finalize"]}
{"id": "C11", "title": "Finalize: a location is attributed to the mapping that contains it", "statement": "When Finalize assigns a mapping to a location, the location had none and its address lies in that mapping's range, both ends included as profile.proto says; if some mapping's [start, limit) contains the address (and mappings are disjoint) that mapping is the one assigned. Nothing else in a location changes.", "quantifier": "all disjoint mapping lists, all addresses", "why_tests_cant": "Boundary addresses exist for each mapping of each profile.", "anchors": ["src/builder.cc: Builder::Finalize"]}
{"id": "C12", "title": "ARM SPE decoding never reads outside the trace buffer and always terminates", "statement": "Decoding records until failure reads only bytes inside the given buffer, never moves the position past its end, each successful record consumes at least one byte, so the number of records is at most the number of bytes.", "quantifier": "all byte buffers, all buffer alignments, both endiannesses", "why_tests_cant": "All malformed traces must be covered.", "anchors": ["src/quipper/arm_spe_decoder.cc: ArmSpeDecoder::NextRecord, SetPayloadAndSize, HandlePacket*"]}
{"id": "C13", "title": "ARM SPE decoding: failure is stable and leaves the output alone", "statement": "When NextRecord returns false the caller's record is unchanged and the next call returns false again.", "quantifier": "all buffers and positions", "why_tests_cant": "Every way to fail has to be covered.", "anchors": ["src/quipper/arm_spe_decoder.cc: ArmSpeDecoder::NextRecord"]}
{"id": "C14", "title": "ARM SPE decoding recovers encoded records", "statement": "For any list of records, each given as a list of well-formed packets closed by an end or timestamp packet with any amount of padding, decoding the byte stream yields exactly the records described by the packets, in order.", "quantifier": "all record lists, packet lists and paddings", "why_tests_cant": "Unbounded packet sequences.", "anchors": ["src/quipper/arm_spe_decoder.cc"]}
{"id": "C15", "title": "Hex strings round-trip", "statement": "HexStringToRawData(RawDataToHexString(bytes)) gives back the bytes and succeeds; RawDataToHexString output has two lowercase hex digits per byte and is injective; HexStringToRawData writes at most length bytes and fails on a non-hex pair.", "quantifier": "all byte strings", "why_tests_cant": "All byte strings of all lengths.", "anchors": ["src/quipper/binary_data_utils.cc: RawDataToHexString, HexStringToRawData"]}
{"id": "C16", "title": "Alignment and byte-order helpers", "statement": "Align<A>(v) is the least multiple of A that is at least v whenever it fits in 64 bits; byte swapping reverses the bytes and is its own inverse; reversing a byte's bits is its own inverse.", "quantifier": "all 64-bit values and power-of-two alignments", "why_tests_cant": "2^64 values.", "anchors": ["src/quipper/binary_data_utils.h: Align, MaybeSwap", "src/quipper/binary_data_utils.cc: ByteSwap", "src/quipper/perf_reader.cc: ReverseByte"]}
{"id": "C17", "title": "Buffer reader never leaves the buffer", "statement": "Any sequence of reads and seeks keeps the position within the buffer, each successful read returns exactly the bytes at the old position and moves the position by exactly that many, and a failed read does not move the position.", "quantifier": "all buffers, all call sequences, all 64-bit sizes and offsets", "why_tests_cant": "Needs all overflow combinations.", "anchors": ["src/quipper/buffer_reader.cc", "src/quipper/data_reader.cc"]}
{"id": "C18", "title": "Buffer writer never leaves the buffer", "statement": "Any sequence of writes and seeks changes only bytes inside the buffer; a successful write changes exactly the addressed bytes, a failed one changes nothing.", "quantifier": "all buffers, all call sequences, all 64-bit sizes and offsets", "why_tests_cant": "Needs all overflow combinations.", "anchors": ["src/quipper/buffer_writer.cc: BufferWriter::WriteData, WriteString", "src/quipper/buffer_writer.h"]}
{"id": "C19", "title": "Values and strings written are read back", "statement": "A sequence of integers and length-prefixed strings written to a buffer is read back unchanged by the matching sequence of reads, in native and in swapped byte order.", "quantifier": "all sequences of values, strings without NUL", "why_tests_cant": "Unbounded sequences.", "anchors": ["src/quipper/data_writer.cc", "src/quipper/data_reader.cc", "src/quipper/buffer_reader.cc", "src/quipper/buffer_writer.cc"]}
{"id": "C20", "title": "CPU lists: format then parse is the identity", "statement": "Parsing the text produced for a CPU list gives the list back.", "quantifier": "all CPU lists", "why_tests_cant": "Lists of every length and gap pattern.", "anchors": ["src/quipper/string_utils.cc: FormatCPUNumbers, ParseCPUNumbers"]}
{"id": "C21", "title": "Build-ID strings: padding and trimming", "statement": "Padding a build ID string gives a string of exactly 40 characters and is idempotent; trimming removes exactly the trailing groups of eight zeros; trimming undoes padding up to trailing zero groups; both preserve the leading characters.", "quantifier": "all strings", "why_tests_cant": "All strings of all lengths.", "anchors": ["src/quipper/perf_buildid.cc: PerfizeBuildIDString, TrimZeroesFromBuildIDString"]}
{"id": "C22", "title": "Combining split mappings preserves the address space", "statement": "Combining mappings keeps every non-mmap event, in order, keeps for every process the set of mapped addresses, and for every address keeps the file offset reported for it; it never merges mappings of different processes and never increases the number of events.", "quantifier": "all event lists", "why_tests_cant": "Unbounded event histories.", "anchors": ["src/quipper/huge_page_deducer.cc: CombineMappings"]}
{"id": "C23", "title": "Huge page deduction only relabels", "statement": "Deducing huge pages never aborts, keeps the number and order of events, and changes nothing but file name, file offset and identity fields of anonymous mappings: process, start address and length of each mapping are unchanged.", "quantifier": "all event lists", "why_tests_cant": "Unbounded event histories with an internal consistency check that must never fire.", "anchors": ["src/quipper/huge_page_deducer.cc: DeduceHugePages"]}
{"id": "C24", "title": "Sample fields round-trip through the binary format", "statement": "For every attribute with supported sample fields, writing a sample's fields and reading the bytes back yields the sample, restricted to the fields the attribute selects, and consumes exactly the bytes written.", "quantifier": "all supported sample_type/read_format masks, all samples, any callchain/branch stack/raw length", "why_tests_cant": "2^20 masks and unbounded lists.", "anchors": ["src/quipper/sample_info_reader.cc: ReadPerfSampleFromData, PerfSampleDataWriter"]}
{"id": "C25", "title": "Sample size prediction", "statement": "GetPerfSampleDataSize equals the number of bytes the writer emits, and it is a multiple of 8.", "quantifier": "all attributes and samples", "why_tests_cant": "As C24.", "anchors": ["src/quipper/sample_info_reader.cc: GetPerfSampleDataSize, PerfSampleDataWriter"]}
{"id": "C26", "title": "Sample parsing is safe on arbitrary bytes", "statement": "Parsing the sample part of any event never reads beyond the event, allocates no list longer than the event's bytes can hold, and accepts only if all bytes of the event were consumed.", "quantifier": "all events, all attributes", "why_tests_cant": "All malformed events.", "anchors": ["src/quipper/sample_info_reader.cc: ReadPerfSampleInfo, ReadCallchain, ReadRawData, ReadBranchStack, ReadReadInfo"]}
{"id": "C27", "title": "Reading the data section: events tile it exactly", "statement": "When reading the data section succeeds, the events read cover the section exactly, without gaps, each at least 8 bytes; reading always terminates.", "quantifier": "all files", "why_tests_cant": "All malformed files.", "anchors": ["src/quipper/perf_reader.cc: ReadDataSection, ReadPerfEventHeader, ReadNonHeaderEventDataWithoutHeader"]}
{"id": "C28", "title": "Metadata sections round-trip", "statement": "String, string list, 32-bit, 64-bit, CPU topology, NUMA topology, PMU mapping, group and hybrid metadata written to a file are read back unchanged.", "quantifier": "all metadata values (strings without NUL, lengths below 2^32)", "why_tests_cant": "Unbounded lists of strings.", "anchors": ["src/quipper/perf_reader.cc: Write*Metadata, Read*Metadata"]}
{"id": "C29", "title": "Sorting events by time is a stable permutation", "statement": "MaybeSortEventsByTime changes nothing if some attribute lacks time; otherwise the result is a permutation ordered by time in which events with equal times keep their order.", "quantifier": "all event lists", "why_tests_cant": "Lists of every length.", "anchors": ["src/quipper/perf_reader.cc: MaybeSortEventsByTime"]}
{"id": "C30", "title": "Renaming files keeps event sizes consistent", "statement": "Localizing file names replaces exactly the names found in the map, leaves other events and fields alone and adjusts the event size so that size minus padded name length is unchanged.", "quantifier": "all event lists and maps", "why_tests_cant": "Every list and map.", "anchors": ["src/quipper/perf_reader.cc: LocalizeMMapFilenames"]}
{"id": "C31", "title": "Remapped addresses hide kernel/unmapped raw addresses consistently", "statement": "With remapping on, a sample address not covered by any mapping is replaced by an address whose top nibble is 8 and whose other 60 bits are unchanged, so it is never treated as mapped by the profile converter.", "quantifier": "all addresses", "why_tests_cant": "2^64 addresses and both components.", "anchors": ["src/quipper/perf_parser.cc: MapIPAndPidAndGetNameAndOffset", "src/perf_data_handler.cc: GetMappingFromPidAndIP"]}
{"id": "C32", "title": "Branch stack clean-up", "statement": "Parsing a branch stack succeeds exactly when null entries only appear at the end, and then keeps exactly the entries before them in order.", "quantifier": "all branch stacks", "why_tests_cant": "Stacks of every length.", "anchors": ["src/quipper/perf_parser.cc: MapBranchStack"]}
{"id": "C33", "title": "Normalizer: a sample address is resolved to the newest mapping of its process", "statement": "After any event history, the mapping found for an address of a process contains the address, and it is the newest one covering it (kernel mappings shared by all processes, fork copies the parent's mappings, exec drops them).", "quantifier": "all histories of mmap, fork, comm and exec events, all pids and addresses", "why_tests_cant": "Unbounded histories.", "anchors": ["src/perf_data_handler.cc: UpdateMapsWithMMapEvent, UpdateMapsWithForkEvent, HandleComm, TryLookupInPid, GetMappingFromPidAndIP"]}
{"id": "C34", "title": "Normalizer: build ID precedence", "statement": "The build ID of a mapping comes from the mmap event if it has one, else from the file-name table, else (kernel images only) from the kernel build ID, and its recorded source says which; it is empty only if none applies.", "quantifier": "all tables, all mappings", "why_tests_cant": "All combinations over unbounded tables.", "anchors": ["src/perf_data_handler.cc: GetBuildId, Normalizer::Normalizer"]}
{"id": "C35", "title": "Normalizer: no input aborts the process", "statement": "No well-typed sequence of events makes the normalizer abort.", "quantifier": "all event sequences", "why_tests_cant": "An abort needs particular 64-bit combinations of start, length and file offset.", "anchors": ["src/perf_data_handler.cc: UpdateMapsWithMMapEvent", "src/intervalmap.h: Set"]}
{"id": "C36", "title": "Converter: samples and weights are conserved", "statement": "For every event type, the sum of its sample counts over all produced profiles equals the number of accepted samples of that event, and the sum of its weights equals the sum of the weights of these samples.", "quantifier": "all sample/mmap/comm histories, both grouping modes", "why_tests_cant": "Unbounded histories with cache invalidation.", "anchors": ["src/perf_data_converter.cc: PerfDataConverter::Sample, AddOrUpdateSample, Comm, MMap"]}
{"id": "C37", "title": "Converter: samples are merged exactly when indistinguishable", "statement": "Two accepted samples of the same process are merged into one profile sample exactly when their locations and selected labels agree.", "quantifier": "all sample histories, all label selections", "why_tests_cant": "All pairs in all histories.", "anchors": ["src/perf_data_converter.cc: MakeSampleKey, AddOrUpdateSample, SampleKey::operator=="]}
{"id": "C38", "title": "Converter: produced profiles are internally consistent", "statement": "In every produced profile, every location id in a sample resolves, every mapping id of a location resolves, ids are 1..n, and each sample has exactly two values per event type.", "quantifier": "all histories", "why_tests_cant": "Cached ids must survive every interleaving of exec and mmap events.", "anchors": ["src/perf_data_converter.cc: GetOrCreateBuilder, AddOrGetLocation, AddOrGetMapping, AddOrUpdateSample, Comm"]}
{"id": "C39", "title": "Converter: weight selection", "statement": "A sample weighs its own period when positive, otherwise the event's configured period when positive, otherwise 1.", "quantifier": "all samples and attributes", "why_tests_cant": "All value combinations.", "anchors": ["src/perf_data_converter.cc: AddOrUpdateSample"]}
{"id": "C40", "title": "Converter: process time stamps are the extrema", "statement": "The per-process minimum and maximum time stamps equal the minimum and maximum of the non-zero time stamps of its samples.", "quantifier": "all sample histories", "why_tests_cant": "Histories of every length.", "anchors": ["src/perf_data_converter.cc: ProcessMeta::UpdateTimestamps"]}
{"id": "C41", "title": "Converter: build ID statistics account for every frame", "statement": "The sum over the build ID statistics of a process's profile equals the total number of frames plus instruction pointers in the profile weighted by sample count, as documented.", "quantifier": "all histories and options", "why_tests_cant": "Unbounded histories and option combinations.", "anchors": ["src/perf_data_converter.cc: IncBuildIdStats", "src/perf_data_converter.h: ProcessProfile::build_id_stats"]}
{"id": "C42", "title": "Perf command line filter", "statement": "ValidatePerfCommandLine accepts only commands of the form perf record/stat/mem/inject whose options are all in the fixed safe list, with their required arguments; no accepted command line contains an unlisted token in option position.", "quantifier": "all argument lists", "why_tests_cant": "A security filter must hold for every argument list.", "anchors": ["src/quipper/perf_option_parser.cc: ValidatePerfCommandLine"]}
{"id": "C43", "title": "An event is decoded with its own attribute", "statement": "If all attributes agree on the id position, the attribute chosen for an event is the one registered for the id stored in the event, wherever the attribute's field mask puts the id.", "quantifier": "all attribute sets accepted by the consistency check, all events", "why_tests_cant": "All field masks and event sizes.", "anchors": ["src/quipper/perf_serializer.cc: UpdateEventIdPositions, GetSampleInfoReaderForEvent, GetSampleInfoReaderForId"]}
{"id": "C44", "title": "Event payloads round-trip between binary events and protobuf", "statement": "Deserializing a serialized event gives back the event for every supported event type, and a serialized attribute gives back the attribute.", "quantifier": "all events of supported types that fit their declared size", "why_tests_cant": "All field values.", "anchors": ["src/quipper/perf_serializer.cc: Serialize*Event, Deserialize*Event, SerializePerfEventAttr, SerializeSampleEvent, GetPerfSampleInfo"]}
{"id": "C45", "title": "Event size computation is consistent", "statement": "The size computed for a protobuf event equals the size of the corresponding raw event and is a multiple of 8; zero is returned only on unsupported events.", "quantifier": "all events", "why_tests_cant": "All string lengths and list sizes.", "anchors": ["src/quipper/perf_data_utils.cc: GetEventDataSize, GetEventDataFixedPayloadSize, GetEventDataVariablePayloadSize, GetUint64AlignedStringLength"]}
{"id": "C46", "title": "File sections never point outside the file", "statement": "A section header is accepted only if its byte range lies inside the file; no metadata reader is entered with a range outside it, and the number of section headers consumed never exceeds the number read.", "quantifier": "all files", "why_tests_cant": "All malformed files.", "anchors": ["src/quipper/perf_reader.cc: ReadPerfFileSection, ReadMetadata, ReadPerfEventHeader"]}
{"id": "C47", "title": "Deleted shared objects are recognised without throwing", "statement": "Whether a file name denotes a deleted shared object is decided without an out-of-range access for every name, and the answer is yes exactly when, past its first byte, the name has .so followed by a dot, an underscore or a blank, and after that (deleted). A name is a versioned shared object exactly when it has .so. past its first byte.", "quantifier": "all strings", "why_tests_cant": "All strings.", "anchors": ["src/perf_data_handler.cc: IsDeletedSharedObject"]}
{"id": "C48", "title": "Writing then reading whole files", "statement": "The byte size announced for an output file is enough for everything that is written, each section lies after the previous one without overlap, and section offsets in the header match where the bytes are written.", "quantifier": "all in-memory perf data", "why_tests_cant": "All combinations of metadata.", "anchors": ["src/quipper/perf_reader.cc: GetSize, GenerateHeader, WriteHeader, WriteAttrs, WriteData, WriteMetadata"]}
{"id": "C49", "title": "Pid/tid packing", "statement": "Packing two 32-bit ids into one 64-bit key and unpacking gives them back, and packing is injective.", "quantifier": "all pairs of 32-bit values", "why_tests_cant": "2^64 pairs.", "anchors": ["src/quipper/perf_parser.cc: mergeTwoU32, splitU64"]}
{"id": "C50", "title": "Build ID injection and file-name lookup", "statement": "After injecting build IDs for file names, the file-name to build-ID table reports, for every injected name, the injected build ID, and other names keep theirs.", "quantifier": "all tables and all existing build ID lists", "why_tests_cant": "All maps.", "anchors": ["src/quipper/perf_reader.cc: InjectBuildIDs, GetFilenamesToBuildIDs, CreateBuildIDEvent"]}
{"id": "C51", "title": "AddressMapper: untouched ranges keep their translation", "statement": "Whatever a mapping request does and answers, an address whose range does not meet the requested range keeps its remapped address, id and offset.", "quantifier": "all histories of requests, all requests, all addresses", "why_tests_cant": "Gap reuse and removal rewrite neighbours; every layout of the remapped space must be covered.", "anchors": ["src/quipper/address_mapper.cc: MapWithIDInternal, Unmap"]}
{"id": "C52", "title": "AddressMapper: a copy translates like the original", "statement": "A copied AddressMapper (as made on fork) answers every lookup exactly like the original.", "quantifier": "all histories, all addresses", "why_tests_cant": "The index is rebuilt from the list of ranges; every possible list must be covered.", "anchors": ["src/quipper/address_mapper.cc: AddressMapper::AddressMapper(const AddressMapper&)"]}
{"id": "C53", "title": "Root path of a file name", "statement": "RootPath returns a prefix of the name: the first two directories of an absolute path at least three levels deep, the only directory of a path two levels deep, the leading slashes of a file in the root directory, nothing for a relative name; names of anonymous, memfd and /tmp mappings get their fixed root.", "quantifier": "all file names, any number of repeated slashes", "why_tests_cant": "All strings.", "anchors": ["src/quipper/string_utils.cc: RootPath"]}
{"id": "C54", "title": "Parsing perf stat output is safe", "statement": "Parsing any text as perf stat output is well defined: it never inspects the end of an empty token and never converts a time that does not fit. It reports success exactly when at least one counter line was recognised and never yields more lines than the text has.", "quantifier": "all texts", "why_tests_cant": "All texts.", "anchors": ["src/quipper/perf_stat_parser.cc: ParsePerfStatOutputToProto", "src/quipper/string_utils.cc: SplitString, TrimWhitespace"]}
{"id": "C55", "title": "Finalizing twice is finalizing once", "statement": "Calling Finalize on a finalized builder returns the same verdict and leaves the profile as it is.", "quantifier": "all builders, with or without locations, mappings and errors", "why_tests_cant": "The second call sees ids where the first saw addresses; every profile must be covered.", "anchors": ["src/builder.cc: Builder::Finalize"]}
{"id": "C56", "title": "Call stacks are added frame by frame", "statement": "AddCallstackToSample appends one location per frame, each return address moved back by one, except the first frame of an interrupt stack, which is kept; values and labels are untouched.", "quantifier": "all stacks of 64-bit addresses of any depth, both stack types", "why_tests_cant": "All depths and addresses, including address 0.", "anchors": ["src/builder.cc: AddCallstackToSample"]}
{"id": "C57", "title": "Documentation URL", "statement": "SetDocURL with an http or https URL (or none) stores an index that resolves to that URL and reports no error; any other URL leaves the profile as it was and makes every later Finalize fail. No call introduces a duplicate string.", "quantifier": "all histories of builder calls, all URLs", "why_tests_cant": "All histories.", "anchors": ["src/builder.cc: Builder::SetDocURL, Finalize"]}
{"id": "C58", "title": "ARM SPE decoding reports only complete records", "statement": "NextRecord returns true only for a record closed by an end packet or a timestamp packet; a trace that stops in the middle of a record, or ends in padding, yields no record for the remainder.", "quantifier": "all traces", "why_tests_cant": "Every place where a trace can be cut.", "anchors": ["src/quipper/arm_spe_decoder.cc: ArmSpeDecoder::NextRecord"]}
{"id": "C59", "title": "ARM SPE alignment packets", "statement": "An alignment packet makes the decoder skip to the next multiple of the alignment; it is accepted whenever the skipped bytes are in the trace, and what is decoded depends only on the bytes of the trace.", "quantifier": "all traces, alignments and buffer addresses", "why_tests_cant": "Depends on where the buffer happens to lie in memory.", "anchors": ["src/quipper/arm_spe_decoder.cc: ArmSpeDecoder::NextRecord"]}
{"id": "C60", "title": "Counted lists accepted by the event size check lie inside the event", "statement": "When GetEventDataSize accepts a raw event that announces a number of entries (namespaces, ID index, thread map, stat config, BPF metadata), all announced entries lie within the event's size.", "quantifier": "all raw events, all announced counts", "why_tests_cant": "Counts are 64-bit values taken from the file; the interesting ones wrap.", "anchors": ["src/quipper/perf_data_utils.cc: GetEventDataSize, GetEventDataVariablePayloadSize"]}
{"id": "C61", "title": "Data size of events that end in a string", "statement": "For a raw MMAP, MMAP2, COMM, CGROUP or KSYMBOL event, GetEventDataSize is the offset of the string plus the string with its terminator, padded to a multiple of 8, whatever follows; so the sample id is looked for exactly behind the padded string.", "quantifier": "all such events, all strings and trailers", "why_tests_cant": "All lengths of string and trailer.", "anchors": ["src/quipper/perf_data_utils.cc: GetEventDataSize, GetUint64AlignedStringLength"]}
{"id": "C62", "title": "Writing sample data stays inside the event", "statement": "WritePerfSampleInfo writes only inside the header.size bytes of the event, and reports failure when the sample does not fit.", "quantifier": "all events, attributes and samples", "why_tests_cant": "All sizes of events and samples; the damage of an overflow is invisible to a test that only looks at the result.", "anchors": ["src/quipper/sample_info_reader.cc: SampleInfoReader::WritePerfSampleInfo, PerfSampleDataWriter"]}
{"id": "C63", "title": "Huge page deduction does not depend on hash order", "statement": "The events after DeduceHugePages are the same whatever the order in which the processes come out of the hash map.", "quantifier": "all event lists, all orders of the processes", "why_tests_cant": "A test sees one order, that of the standard library it was built with.", "anchors": ["src/quipper/huge_page_deducer.cc: DeduceHugePages, PerPidMMapEventRange"]}
{"id": "C64", "title": "Huge pages between two mappings of a file are recognised", "statement": "Huge mappings without offset that fill the gap between two synthesized mappings of one file, whose offsets fit, get the name, the identity and the continued offsets of this file, wherever they stand among the events, and the size of their events follows the length of the name.", "quantifier": "all event lists, all numbers and lengths of huge mappings", "why_tests_cant": "All positions, numbers and lengths.", "anchors": ["src/quipper/huge_page_deducer.cc: DeduceHugePages, UpdateRangeFromNext, SetMmapFilename"]}
{"id": "C65", "title": "Combining mappings keeps build IDs", "statement": "After combining mappings, the mapping reported for an address carries the build ID that the mapping of this address had.", "quantifier": "all event lists, all addresses", "why_tests_cant": "All pairs of adjacent mappings with different build IDs.", "anchors": ["src/quipper/huge_page_deducer.cc: CombineMappings"]}
{"id": "C66", "title": "Combining mappings keeps the mappings seen at each moment", "statement": "For every event that is not a mapping, the mapping in effect at each address is the same before and after combining.", "quantifier": "all event lists, all positions in them", "why_tests_cant": "Depends on the interleaving of mappings and other events.", "anchors": ["src/quipper/huge_page_deducer.cc: CombineMappings"]}
{"id": "C67", "title": "Normalizer: a sample is attributed to the right event", "statement": "If the profile has one event, every sample belongs to it; otherwise a sample belongs to the last event that lists the sample's ID, and a sample whose ID is listed nowhere is not reported.", "quantifier": "all lists of events with IDs, all samples", "why_tests_cant": "Unbounded ID tables, duplicates included.", "anchors": ["src/perf_data_handler.cc: Normalizer::Normalizer, GetEventIndexForSample"]}
{"id": "C68", "title": "Normalizer: lost samples are placed in their own mapping", "statement": "The mapping reported for a lost sample is named [lost] and contains the address reported for the sample; one sample is reported for each lost one.", "quantifier": "all event histories", "why_tests_cant": "Depends on which other fake mappings exist by then.", "anchors": ["src/perf_data_handler.cc: HandleLost, GetOrAddFakeMapping"]}
{"id": "C69", "title": "Normalizer: the main mapping of a process", "statement": "The main mapping reported with a sample is the first mapping of the process whose name can be that of an executable, or the last one loaded at one of the two usual addresses; a fork passes it on, an exec forgets it. A process without one that is sampled in the kernel gets a mapping named after the process with the kernel's build ID.", "quantifier": "all event histories", "why_tests_cant": "Unbounded histories of mappings, forks and execs.", "anchors": ["src/perf_data_handler.cc: UpdateMapsWithMMapEvent, UpdateMapsWithForkEvent, HandleSample, GetOrAddFakeMapping"]}
{"id": "C70", "title": "Normalizer: facts about the whole recording", "statement": "Trace data is decoded exactly if the recording announces a trace of the ARM SPE kind; the process of a decoded record is the one that the last comm or fork event in the recording gives for its thread; lost samples are taken from lost-samples events exactly from perf 6.1 on.", "quantifier": "all recordings, all version strings", "why_tests_cant": "All event orders and version strings.", "anchors": ["src/perf_data_handler.cc: HasArmSPEAuxtrace, TidToPidMapping, Normalizer::Normalizer"]}
{"id": "C71", "title": "Converter: stacks are shown", "statement": "A profile sample shows, frame by frame and innermost first, the stack of every sample added to it: the instruction pointer, then the return addresses of the call chain less one, without context markers and without the first entry; for a sample with a branch stack the user part comes from the branch sources; frames in no mapping are left out. Without grouping by process this is claimed for histories in which process 0 executes no program.", "quantifier": "all histories, all samples, call chains and branch stacks of any length", "why_tests_cant": "Unbounded stacks and histories; location caches depend on everything before.", "anchors": ["src/perf_data_converter.cc: Sample, AddOrGetLocation"]}
{"id": "C72", "title": "Converter: labels are shown", "statement": "A profile sample carries exactly the selected labels of every sample added to it, with their texts and numbers, in a fixed order; the comm label is the last name the process or thread was given since its last exec. Without grouping by process this is claimed for histories in which process 0 executes no program.", "quantifier": "all histories, all label selections", "why_tests_cant": "2^16 label selections times all histories of names.", "anchors": ["src/perf_data_converter.cc: MakeSampleKey, AddOrUpdateSample, Comm"]}
{"id": "C73", "title": "Converter: one profile per process", "statement": "Grouped by process, samples of different processes never share a profile and samples of a process without an exec all go to one; ungrouped, there is one profile for all. Without grouping by process this is claimed for histories in which process 0 executes no program.", "quantifier": "all histories", "why_tests_cant": "Depends on the whole history of samples and execs.", "anchors": ["src/perf_data_converter.cc: GetOrCreateBuilder, Comm"]}
{"id": "C74", "title": "Converter: the mapping of each frame", "statement": "The location of a frame has the address of the frame and shows (range, offset, name, build ID) a mapping that was given for that address by this sample or by an earlier sample of the process with no exec and no new mapping of the process at that address in between; it has no mapping if none was given. Without grouping by process this is claimed for histories in which process 0 executes no program.", "quantifier": "all histories, all frames", "why_tests_cant": "Cached locations are invalidated by later events; all interleavings matter.", "anchors": ["src/perf_data_converter.cc: AddOrGetLocation, AddOrGetMapping, MMap"]}
{"id": "C75", "title": "Converter: sample types and comments", "statement": "Every profile has, for every event in order, the types <name>_sample and <name>_event (event_<k>_... for the k-th event without a name), both with unit count; the default type is the last; its comments are the version and the command line of perf, if known. Without grouping by process this is claimed for histories in which process 0 executes no program.", "quantifier": "all lists of events, names and histories", "why_tests_cant": "Unbounded lists of events; string interning depends on everything before.", "anchors": ["src/perf_data_converter.cc: GetOrCreateBuilder"]}
{"id": "C76", "title": "Converter: the first mapping of a profile", "statement": "The first mapping of a profile is the main mapping that came with its oldest sample; an empty mapping at address 0 if there was none. Without grouping by process this is claimed for histories in which process 0 executes no program.", "quantifier": "all histories", "why_tests_cant": "Depends on which sample created the profile.", "anchors": ["src/perf_data_converter.cc: GetOrCreateBuilder"]}
{"id": "C77", "title": "Converter: conversion does not abort", "statement": "Converting a recording to profiles terminates without a failed check and without signed overflow.", "quantifier": "all recordings and options", "why_tests_cant": "Every reachable check in the normalizer, the converter and the builder over all recordings.", "anchors": ["src/perf_data_converter.cc: PerfDataProtoToProfiles, Sample, AddOrUpdateSample, AddOrGetMapping", "src/perf_data_handler.cc: Process"]}
{"id": "C78", "title": "Converter: validity of the profiles", "statement": "A produced profile passes the builder's own validity check exactly if the names of its sample types are distinct and that of the default type is not empty. Without grouping by process this is claimed for histories in which process 0 executes no program.", "quantifier": "all histories and lists of event names (string tables below 2^31 entries)", "why_tests_cant": "The check inspects all ids, references, values and labels of profiles of any size.", "anchors": ["src/perf_data_converter.cc: Profiles, MakeProcessProfile", "src/builder.cc: CheckValid"]}
{"id": "C79", "title": "From recording to profile: addresses lie in their mappings", "statement": "In the profiles of a recording, every frame of every accepted sample is at address 0 or at an address within the range of the mapping shown for it, and a frame without a mapping is at address 0. Without grouping by process this is claimed for histories in which process 0 executes no program.", "quantifier": "all recordings in which no process is called [lost]", "why_tests_cant": "Spans normalizer, converter and their caches over all histories.", "anchors": ["src/perf_data_handler.cc: HandleSample, GetMappingFromPidAndIP", "src/perf_data_converter.cc: Sample, AddOrGetLocation"]}
{"id": "C80", "title": "Converter: the check of main mappings", "statement": "If the option to fail on differing main mappings is set and processes have profiles of their own, then after a conversion every sample whose main mapping has a name (without NUL bytes) is in a profile whose first mapping has that name. Without grouping by process this is claimed for histories in which process 0 executes no program.", "quantifier": "all histories and options", "why_tests_cant": "The main mapping may change with every event of any history.", "anchors": ["src/perf_data_converter.cc: Sample, GetOrCreateBuilder, kFailOnMainMappingMismatch"]}
{"id": "C81", "title": "Parser: files and offsets of sample addresses", "statement": "For every sample the parser reports file and offset of its address, its data address, its call chain (without context markers and its own address) and its branches, and the name of its thread; a file is that of the newest mapping event of the process (or of the process it was forked from, or of the kernel) whose range contains the address at that time. (Recordings with 64-bit numbers, pages of a usual size, no mapping ending exactly at 2^64, and mappings that together fit into the made-up address space.)", "quantifier": "all event streams (forks, mappings, names, samples in any order) and options", "why_tests_cant": "Depends on the whole history of mappings, forks and names before each sample.", "anchors": ["src/quipper/perf_parser.cc: ProcessEvents, MapSampleEvent, MapMmapEvent, MapIPAndPidAndGetNameAndOffset", "src/quipper/perf_parser.cc: MapForkEvent, MapCommEvent, GetOrCreateProcessMapper"]}
{"id": "C82", "title": "Parser: no event is lost, added or moved", "statement": "Without discarding, the types of the events of a recording after parsing are what they were, one by one; the ends of rounds are untouched, and the parsed events are the others in order. (Recordings with 64-bit numbers, pages of a usual size, no mapping ending exactly at 2^64, and mappings that together fit into the made-up address space.)", "quantifier": "all event streams and options", "why_tests_cant": "Streams of every length.", "anchors": ["src/quipper/perf_parser.cc: ProcessEvents, MapSampleEvent, MapMmapEvent, MapIPAndPidAndGetNameAndOffset"]}
{"id": "C83", "title": "Parser: without remapping the recording is unchanged", "statement": "Without remapping and discarding, parsing leaves every event of the recording as it was. (Recordings with 64-bit numbers, pages of a usual size, no mapping ending exactly at 2^64, and mappings that together fit into the made-up address space.)", "quantifier": "all event streams", "why_tests_cant": "Streams of every length and content.", "anchors": ["src/quipper/perf_parser.cc: ProcessEvents, MapSampleEvent, MapMmapEvent, MapIPAndPidAndGetNameAndOffset"]}
{"id": "C84", "title": "Parser: discarding drops exactly the unused mapping events", "statement": "With discarding, the mapping events in whose ranges no looked-up sample address fell, and the ends of rounds, are dropped; all other events and what is reported about them are the same as without discarding. (Recordings with 64-bit numbers, pages of a usual size, no mapping ending exactly at 2^64, and mappings that together fit into the made-up address space.)", "quantifier": "all event streams of known event types", "why_tests_cant": "Whether an event is used depends on all samples after it, in all processes forked from its own.", "anchors": ["src/quipper/perf_parser.cc: ParseRawEvents, ProcessEvents, num_samples_in_mmap_region"]}
{"id": "C85", "title": "Parser: counters", "statement": "The parser's counters are the numbers of sample, mapping, fork, name, exit and kernel symbol events, of samples all of whose code addresses are in mappings, of samples with a data address and of those with the data address in a mapping. (Recordings with 64-bit numbers, pages of a usual size, no mapping ending exactly at 2^64, and mappings that together fit into the made-up address space.)", "quantifier": "all event streams", "why_tests_cant": "Streams of every length.", "anchors": ["src/quipper/perf_parser.cc: ProcessEvents, MapSampleEvent"]}
{"id": "C86", "title": "Parser: when parsing aborts", "statement": "Parsing does not abort; precisely, it aborts exactly if some mapping event has no size, goes over the end of memory, or cuts another mapping of its process inside a page without being allowed to. (Recordings with 64-bit numbers, pages of a usual size, no mapping ending exactly at 2^64, and mappings that together fit into the made-up address space.)", "quantifier": "all event streams", "why_tests_cant": "A CHECK over every mapping event of any history.", "anchors": ["src/quipper/perf_parser.cc: ProcessEvents, MapMmapEvent"]}
{"id": "C87", "title": "Parser: events of unknown types", "statement": "An event of a type the parser does not know does not keep other events from being processed.", "quantifier": "all event streams", "why_tests_cant": "Position of the event in streams of every length.", "anchors": ["src/quipper/perf_parser.cc: ProcessEvents"]}
{"id": "C88", "title": "Parser: made-up addresses", "statement": "With remapping, all addresses of a sample are replaced alike: different addresses in mappings become different ones, the place in the page is kept; context markers, null branches and absent data addresses stay. Mapping events keep size, file, offset, process and place in the page; only the first of the kernel loses its offset and starts there if it lies in the mapping. (Recordings with 64-bit numbers, pages of a usual size, no mapping ending exactly at 2^64, and mappings that together fit into the made-up address space.)", "quantifier": "all event streams and addresses", "why_tests_cant": "Every address under every history of mappings.", "anchors": ["src/quipper/perf_parser.cc: ProcessEvents, MapSampleEvent, MapMmapEvent, MapIPAndPidAndGetNameAndOffset"]}
{"id": "C89", "title": "Parser: a remapped recording means the same", "statement": "Parsing the recording produced by remapping reports for every sample the same thread name, files and offsets as the first parse.", "quantifier": "all event streams", "why_tests_cant": "Relates two runs of the parser over all histories.", "anchors": ["src/quipper/perf_parser.cc: ProcessEvents, MapSampleEvent, MapMmapEvent, MapIPAndPidAndGetNameAndOffset"]}
{"id": "C90", "title": "Recorder: only checked commands are run", "statement": "Every command the recorder runs is its own perf program with the arguments it was given after they passed the check of command lines, followed by the recorder's output file and sleep for the given time, or, for the injection, by its output file, -f and the file recorded before. The injection runs only after the recording succeeded; nothing runs for a refused line.", "quantifier": "all command lines, times, file names and exit codes", "why_tests_cant": "Arbitrary lists of arbitrary strings.", "anchors": ["src/quipper/perf_recorder.cc: RunCommandAndGetSerializedOutput, FullPerfCommand"]}
{"id": "C91", "title": "Recorder: ETM needs an injection", "statement": "A recording of ETM events without arguments for the injection is refused.", "quantifier": "all command lines", "why_tests_cant": "Every way to write the events in a line of any length.", "anchors": ["src/quipper/perf_recorder.cc: IsRecordingETM"]}
{"id": "C92", "title": "Recorder: stored command line of counters", "statement": "The command line stored with the counters of perf stat is the command that was run without the output file.", "quantifier": "all command lines", "why_tests_cant": "Arbitrary words, including values that look like options.", "anchors": ["src/quipper/perf_recorder.cc: ParsePerfStatFileToString"]}
{"id": "C93", "title": "Renaming mapped files by build ID", "statement": "Renaming by build ID gives every mapping of a file the name listed for that file's build ID (of several entries of the file the last that is listed counts), keeps the names of files whose build ID is not listed, and changes no build ID. Joined on build IDs: an entry with an unlisted build ID keeps its name.", "quantifier": "all tables from build IDs to names, all recordings", "why_tests_cant": "Arbitrary tables and several entries per file.", "anchors": ["src/quipper/perf_reader.cc: Localize"]}
{"id": "C94", "title": "Alternative names of files with build IDs", "statement": "Giving alternative names adds one copy of each build ID entry per alternative of its name and changes nothing else; names that are nobody's alternative keep their build IDs.", "quantifier": "all multimaps of names, all recordings", "why_tests_cant": "Arbitrary multimaps, including cyclic ones.", "anchors": ["src/quipper/perf_reader.cc: AlternateBuildIDFilenames"]}
{"id": "C95", "title": "The list of mapped files", "statement": "The list of file names has every name of a mapping event exactly once, in increasing order of bytes, and no other.", "quantifier": "all recordings", "why_tests_cant": "All lists of events.", "anchors": ["src/quipper/perf_reader.cc: GetFilenames, GetFilenamesAsSet"]}
{"id": "C96", "title": "Hash stored with a file name", "statement": "The hash prefix stored next to a file name is the hash of that name, also after files were renamed.", "quantifier": "all recordings, all renamings, all hash functions", "why_tests_cant": "All names.", "anchors": ["src/quipper/perf_reader.cc: LocalizeMMapFilenames, LocalizeUsingFilenames, AlternateBuildIDFilenames", "src/quipper/perf_serializer.cc: SerializeMMapEvent"]}
{"id": "C97", "title": "Event attributes are read and stored faithfully", "statement": "An event attribute of any size from 8 bytes on is read as the values its file holds, whatever the byte order, with members beyond its size 0 and members unknown to the reader skipped; smaller attributes are refused; nothing outside the data is read. Stored in a message and restored, an attribute keeps its values.", "quantifier": "all attributes, sizes, byte orders, positions in the data; all contents for safety", "why_tests_cant": "The number of values, sizes and contents is unbounded in practice; flag words have 2^64 values.", "anchors": ["src/quipper/perf_reader.cc: ReadEventAttr", "src/quipper/perf_serializer.cc: SerializePerfEventAttr, DeserializePerfEventAttr"]}
{"id": "C98", "title": "Leaving out types of events removes just these events", "statement": "A caller may name types of events that it does not want. Reading a recording then gives the events that reading it without this choice gives, except those of the named types, in the same order; what else is learnt from the events stays the same. A function given to the reader is called with every sample, in order, wanted as an event or not.", "quantifier": "all data sections, all sets of types, all states of the reader before", "why_tests_cant": "The order and number of events, the sets of types and the contents of records are unbounded.", "anchors": ["src/quipper/perf_reader.cc: ReadNonHeaderEventDataWithoutHeader, ReadDataSection", "src/quipper/perf_reader.h: SetEventTypesToSkipWhenSerializing, SetSampleCallback"]}
{"id": "C99", "title": "Writing a recording and reading it back", "statement": "A recording written to memory and read again has the same events with the same contents, the same event attributes and the same metadata; only the build IDs found in mappings are listed as well. Doing this again changes nothing if the recording's own list of build IDs is not stored.", "quantifier": "all recordings that the format can hold", "why_tests_cant": "Any number of events of every type with any contents, any combination of metadata.", "anchors": ["src/quipper/perf_reader.cc: WriteToVector, WriteToPointer, WriteToPointerWithoutCheckingSize, ReadFromVector, ReadFileData"]}
{"id": "C100", "title": "A recording from a pipe is the same as from a file", "statement": "The same recording (attributes, metadata, tracing data, build IDs, events) gives the same result whether its bytes have the layout of a file or of a pipe; attributes that come twice are taken once.", "quantifier": "all recordings that both layouts can hold", "why_tests_cant": "Any number of events, attributes and features; every order in which duplicates come.", "anchors": ["src/quipper/perf_reader.cc: ReadPipedData, ReadAttrEventBlock, ReadHeaderFeature, ReadFileData"]}
{"id": "C101", "title": "Reading any bytes ends", "statement": "Whatever bytes are given to the reader, it either returns a recording or refuses them: it does not run forever, does not abort the program and does not access memory outside of the data and of the events it made.", "quantifier": "all byte strings below 2^63 bytes, all settings of the reader", "why_tests_cant": "All inputs, including malformed and hostile ones.", "anchors": ["src/quipper/perf_reader.cc: ReadFromPointer, ReadFromData, ReadHeader, ReadFileData, ReadPipedData"]}
{"id": "C102", "title": "Recordings of machines with the other byte order", "statement": "The events of a recording made on a machine with the other byte order are read as the events they are: the same as from a recording of this machine, in order and to the last byte, whatever their types and contents.", "quantifier": "all lists of events of all supported types with any contents", "why_tests_cant": "Every field of every type of event must be converted exactly once; the number of events and the contents are unbounded.", "anchors": ["src/quipper/perf_reader.cc: ReadDataSection, ReadHeader, ByteSwapEventDataFixedPayloadFields, ByteSwapEventDataVariablePayloadFields", "src/quipper/sample_info_reader.cc: ReadPerfSampleInfo"]}
{"id": "C103", "title": "Recordings of the old form", "statement": "A recording in the old form, in which the names of the events have a section of their own in the file or records of their own in a pipe, is read as the same recording as one in which they are described together with the attributes: the same events, attributes, names and metadata.", "quantifier": "all recordings that a file or pipe can hold and all names for their attributes", "why_tests_cant": "The numbers of attributes and events and all contents are unbounded; the reader takes another path for each form.", "anchors": ["src/quipper/perf_reader.cc: ReadAttrsSection, ReadEventTypesSection, ReadEventType, ReadFileData, ReadPipedData"]}
{"id": "C104", "title": "Names belong to their attributes", "statement": "After any file was read successfully, every name of an event is kept with the configuration of the attribute at the same place, there are as many names as attributes or none, and if there are names then the feature for them is reported as present.", "quantifier": "all bytes of files that are read", "why_tests_cant": "Any bytes can be in the file; attributes and names come from different places in it.", "anchors": ["src/quipper/perf_reader.cc: ReadEventType, ReadEventTypesSection, ReadEventDescMetadata, ReadFileData"]}
{"id": "C105", "title": "Every sample of a recording is counted", "statement": "Whatever bytes are given: if they are read and converted, then for each event the counts of all profiles add up to the number of its samples and of the samples reported as lost (unless these are not asked for), and the weights add up to their periods.", "quantifier": "all bytes that are read and converted, all options and labels, all build IDs given", "why_tests_cant": "All recordings, with any number of samples; every stage from reading to the profiles could drop or repeat some.", "anchors": ["src/perf_data_converter.cc: RawPerfDataToProfiles, PerfDataProtoToProfiles", "src/quipper/perf_reader.cc: ReadFromPointer", "src/quipper/perf_parser.cc: ParseRawEvents"]}
{"id": "C106", "title": "Profiles do not depend on the form of the recording", "statement": "A recording leads to the same profiles whether it comes as a file, from a pipe, in the old form of either, or was read and written again before.", "quantifier": "all recordings that both forms can hold, all options, labels and build IDs given", "why_tests_cant": "Any number of events, attributes and metadata; the forms take different ways through the reader.", "anchors": ["src/perf_data_converter.cc: RawPerfDataToProfiles", "src/quipper/perf_reader.cc: ReadFileData, ReadPipedData, WriteToVector"]}
{"id": "C107", "title": "Profiles do not depend on the order of records of different times", "statement": "Records with times may stand in the file in any order, as they come from the buffers of several processors: only the order of records with the same time has influence on the profiles.", "quantifier": "all recordings whose events record the time, all reorderings", "why_tests_cant": "The number of orders of n records grows as n!; sorting must make up for all of them.", "anchors": ["src/perf_data_converter.cc: RawPerfDataToProfiles", "src/quipper/perf_reader.cc: MaybeSortEventsByTime, ReadNonHeaderEventDataWithoutHeader", "src/quipper/perf_parser.cc: ParseRawEvents"]}
{"id": "C108", "title": "Frames of the profiles lie in mappings of the profile", "statement": "Whatever bytes are given: if they are read and converted, then in every profile the numbers of mappings, locations, functions and samples are in order, every frame of every sample has a location in the same profile, and its address is 0 or lies in the mapping shown for it.", "quantifier": "all bytes that are read and converted, all options and labels, all build IDs given", "why_tests_cant": "All recordings; the profiles share state between processes, and the addresses have been moved by the parser before.", "anchors": ["src/perf_data_converter.cc: RawPerfDataToProfiles, AddOrUpdateSample, AddOrGetLocation, AddOrGetMapping, Comm", "src/perf_data_handler.cc: PerfDataHandler::Process"]}
{"id": "C109", "title": "A sample is shown with its stack and its mappings", "statement": "For every sample of a recording that belongs to one of its events, one of the profiles (that of the sample's process, if profiles are per process) has a profile sample that counts for this event, and its frames are those of the sample's stack one by one: the accessed data if asked for, the instruction, the callers in the call chain moved into the call, the sources of the branches. Each is at its address, in the mapping the process had there at a sample with that address in its stack, this one or an earlier one since which the process mapped nothing there and executed no other program. The mapping has the range, the file offset, the file name and the build ID of its record.", "quantifier": "all bytes that are read and converted, all samples in them, all options and labels, any order of records in the file", "why_tests_cant": "All recordings with all interleavings of mappings, forks, execs and samples.", "anchors": ["src/perf_data_converter.cc: RawPerfDataToProfiles, Sample, AddOrUpdateSample, AddOrGetLocation, AddOrGetMapping, MMap, Comm", "src/perf_data_handler.cc: Normalizer::HandleSample, UpdateMapsWithMMapEvent, GetMappingFromPidAndIP", "src/quipper/perf_parser.cc: PerfParser::ParseRawEvents"]}
{"id": "C110", "title": "Recordings in order are always converted", "statement": "Converting the bytes of a recording finishes without an abort, an overflow or an endless loop, whatever build IDs, labels and thread types are given, unless the recording has something of the following: a mapping that is empty, goes over the middle or the end of memory, does not begin at a page, or ends within a page that another mapping is in or beside; a program in the kernel that ends beyond the end of memory; a process called [lost]; a version text whose numbers do not fit; weights of 2^63 or more together; mappings so large and many that the parser has no room to place them one after the other.", "quantifier": "all bytes that can be read, all arguments", "why_tests_cant": "A CHECK or an overflow depends on the combination of all mappings in the order of time after merging and deduction of huge pages; tests try some.", "anchors": ["src/perf_data_converter.cc: RawPerfDataToProfiles", "src/quipper/perf_parser.cc: PerfParser::ParseRawEvents, MapMmapEvent", "src/quipper/address_mapper.cc: AddressMapper::MapWithID", "src/quipper/huge_page_deducer.cc: DeduceHugePages, CombineMappings", "src/perf_data_handler.cc: Normalizer::Normalize"]}
{"id": "C111", "title": "Mappings in profiles have the right build IDs", "statement": "Every mapping that a frame of a sample is shown in has a build ID: the one in the record of the mapping if there is one; or else the one that the caller gave for the file; or else the last one that the recording lists for the file (in both cases with 40 digits, up to zeros at the end). The names under which the kernel's text is mapped, [kernel.kallsyms]_text and [kernel.kallsyms]_stext, stand for [kernel.kallsyms]. Files of which none of these is known have no build ID.", "quantifier": "all bytes that are read and converted, all samples in them, all build IDs given", "why_tests_cant": "All tables of build IDs, given ones and recorded ones, with all mappings.", "anchors": ["src/perf_data_converter.cc: RawPerfDataToProfiles, AddOrGetMapping", "src/quipper/perf_reader.cc: InjectBuildIDs, AlternateBuildIDFilenames", "src/perf_data_handler.cc: GetBuildId"]}
{"id": "C112", "title": "The labels of a sample are those of its record", "statement": "Every sample of a recording that belongs to an event is counted in a profile sample (of the profile of its process, if there is one for each) whose labels are, in order, exactly those of the asked-for labels that the record of the sample has: process, thread, time, CPU, mode, page sizes, latencies, memory source; the names that the comm records before it gave to its process and thread (forgotten when the process executes a program); the type the caller gave for its thread; and the path that the first record for its cgroup gave.", "quantifier": "all bytes that are read and converted, all samples in them, all sets of labels asked for, all thread types given", "why_tests_cant": "All histories of comm, mapping and cgroup records before a sample, in any order of times.", "anchors": ["src/perf_data_converter.cc: SampleKey, AddOrGetSample, Comm, RawPerfDataToProfiles", "src/perf_data_handler.cc: HandleSample, UpdateMapsWithCommEvent, cgroup handling", "src/quipper/perf_parser.cc: ProcessEvents"]}
{"id": "C113", "title": "Which profiles are made", "statement": "From bytes that cannot be read no profile is made. From a recording, no empty profile is made; with a profile for each process there is a profile for exactly those processes of which the recording has samples (counting lost ones unless they are to be left out), and just one for a process that executes no program after its first sample; without, there is exactly one profile if the recording has any sample, and none otherwise.", "quantifier": "all bytes, all options", "why_tests_cant": "All recordings; the number of profiles depends on the whole history of samples, lost samples and executed programs.", "anchors": ["src/perf_data_converter.cc: RawPerfDataToProfiles, GetOrCreateBuilder, Comm, Profiles", "src/perf_data_handler.cc: HandleLost, Process"]}
{"id": "C114", "title": "Messages and recordings are told apart", "statement": "The encoding of any message of perf data is taken for a message. A recording that can be read is never taken for a message, so it is converted as a recording.", "quantifier": "all messages, with any fields in any order and nested up to the limit; all bytes that can be read as a recording", "why_tests_cant": "All encodings and all recordings; a recording is taken for a message only if all its bytes happen to form fields.", "anchors": ["src/perf_to_profile_lib.cc: StringToProfiles", "src/quipper/perf_data.proto", "src/quipper/perf_reader.cc: ReadHeader, ReadFromData"]}
{"id": "C115", "title": "Arguments of perf_to_profile", "statement": "The command line is accepted exactly if it consists of the flags -j and -f, of -i and -o with values, written together or apart and in any order, of other words between them, and of anything after --; and if the last value of -i and the last of -o are not empty. These last values and the flags are what is used.", "quantifier": "all command lines", "why_tests_cant": "All lists of words of any length.", "anchors": ["src/perf_to_profile_lib.cc: ParseArguments"]}
{"id": "C116", "title": "Files written by perf_to_profile", "statement": "The program reports success exactly if its arguments are accepted, the input can be read, exactly one profile is made from it, and the output can be created, where a file that exists is overwritten only with -f. Then the output holds the profile. No other file is changed, and none at all unless it reports success. A recording with a sample gives a profile; one without samples, or bytes that are nothing, end in failure.", "quantifier": "all command lines, all files, all contents of the input; several names for one file", "why_tests_cant": "All contents and states of the file system, also if input and output are one file.", "anchors": ["src/perf_to_profile.cc: main", "src/perf_to_profile_lib.cc: ReadFileToString, StringToProfiles, CreateFile, FileExists"]}
{"id": "C117", "title": "Messages keep recordings", "statement": "A recording that can be read and whose mappings are in order is turned into a message, whatever options are given but the discarding of mappings; bytes that cannot be read are refused. The message says beside its events what the recording says, and without remapping its events are those of the recording, in the order of their times if the default options are used; mappings are changed only if huge pages or split mappings are among them. Written as a file again and read, it holds the same events and says the same. The counters of the parser and the options that an options message names come through; what it does not name is as usual.", "quantifier": "all recordings, options and times; for the way back all recordings as in C48 in which all samples have addresses", "why_tests_cant": "All contents of recordings.", "anchors": ["src/quipper/perf_protobuf_io.cc: SerializeFromStringWithOptions, SerializeFromFileWithOptions, DeserializeToFile", "src/quipper/perf_reader.cc: Serialize, Deserialize", "src/quipper/perf_serializer.cc: SerializeParserStats, DeserializeParserStats"]}
{"id": "C118", "title": "Counters of a message", "statement": "The counters in the message of a recording are the numbers of samples, mappings, forks and exits among all its records, and the number of samples all of whose code addresses (its own, those of its call chain, those of its branches) belong at that time to mappings of its process, where a process that is forked has the mappings of its parent and a process not mentioned yet those of the kernel.", "quantifier": "all recordings whose mappings are in order, all options but the discarding of mappings", "why_tests_cant": "All histories of mappings, forks and samples.", "anchors": ["src/quipper/perf_protobuf_io.cc: SerializeFromStringWithOptions", "src/quipper/perf_parser.cc: ProcessEvents, MapSampleEvent, MapMmapEvent, MapForkEvent", "src/quipper/perf_serializer.cc: SerializeParserStats"]}
{"id": "C119", "title": "Arguments and formats of perf_converter", "statement": "The command line is accepted exactly if it consists of the options -i, -I, -o, -O and -v with values, written together or apart and in any order, of other words between them, and of anything after --. The last values count; without them the recording perf.data is read and text is written to /dev/stdout. An input format is perf, text or proto, alone or with .remap, .discard, .remap.discard or .no_combine behind it, which turns remapping on, discarding on, both, or the joining of split mappings off; nothing else is an input format.", "quantifier": "all command lines, all names of formats", "why_tests_cant": "All lists of words and all words.", "anchors": ["src/quipper/perf_converter.cc: ParseArguments", "src/quipper/conversion_utils.cc: ParseFormatOptions"]}
{"id": "C120", "title": "Files written by perf_converter", "statement": "The program reports success exactly if its arguments and formats are right, the input can be read and is of its format, and the output can be written; then the output holds the recording in the format asked for, a message with the time 0, so that equal inputs give equal outputs. No other file is changed, and none at all if it reports a failure. A recording whose mappings are in order can be turned into text or a message. It makes no difference whether a recording is turned into something at once or by way of a message or of text.", "quantifier": "all command lines, all files, all contents of the input", "why_tests_cant": "All contents and states of the file system.", "anchors": ["src/quipper/perf_converter.cc: main", "src/quipper/conversion_utils.cc: ReadInput, WriteOutput, ConvertFile", "src/quipper/file_utils.h: BufferToFile"]}
{"id": "C121", "title": "Files and buffers read alike", "statement": "Any sequence of reads of bytes, strings, numbers and sized strings and of changes of the position gives the same results on a file as on a buffer that holds the bytes of the file, in both byte orders, whatever the strings to be filled held before. Reading a whole file gives its bytes.", "quantifier": "all files of less than 2^63 bytes, all sequences of calls", "why_tests_cant": "All contents and histories of calls.", "anchors": ["src/quipper/file_reader.cc: FileReader, SeekSet, ReadData, ReadString", "src/quipper/file_utils.cc: FileToBuffer", "src/quipper/data_reader.cc"]}
{"id": "C122", "title": "Build IDs in files", "statement": "The build ID of a kernel module is the description of the first note in its notes file that is named GNU and has type 3, and there is none without such a note; whatever the file holds, reading it ends and stays within it. The build ID of an ELF file is the description of the first such note in its section .note.gnu.build-id, or without that in .notes, or without that in .note, in whatever order the sections come.", "quantifier": "all lists of notes and sections, all contents of notes files", "why_tests_cant": "All contents of files.", "anchors": ["src/quipper/dso.cc: ReadBuildIdNote, ReadModuleBuildId, GetBuildID, FindElfSection"]}
{"id": "C123", "title": "Reading a build ID leaves other files alone", "statement": "Reading the build ID of an ELF file closes the descriptor opened for it and no other one, whatever files other threads open meanwhile.", "quantifier": "all sets of open descriptors, all schedules of one more thread that opens files", "why_tests_cant": "All schedules.", "anchors": ["src/quipper/dso.cc: ReadElfBuildId"]}
{"id": "C124", "title": "A command is run and its output read", "statement": "Running a command gives what it prints, after what the output held before, however the printing is cut up, and nothing that it writes elsewhere; the status is the exit code, or -1 if the command did not exit. A command that cannot be run gives -1 with the error and leaves the output alone. Afterwards the same descriptors are open as before.", "quantifier": "all descriptor tables, all outputs of the command and ways they are cut into reads", "why_tests_cant": "All outputs, schedules of reads and states of the process.", "anchors": ["src/quipper/run_command.cc: RunCommand, ReadFromFd, CloseFdOnExec", "src/quipper/run_command.h"]}
{"id": "C125", "title": "Interrupts go to the command", "statement": "While a command is run an interrupt does not end the program, and an interrupt that comes before the command ends reaches the command, whatever the order of the steps of the program, the child and the interrupt.", "quantifier": "all interleavings of the program, the child and interrupts, all dispositions before", "why_tests_cant": "All schedules.", "anchors": ["src/quipper/run_command.cc: SigintHandler, HandleSignal, RunCommand"]}
{"id": "C126", "title": "The quipper program", "statement": "quipper runs perf for the time asked with the safe arguments asked, and writes what is read from its output to the file asked; if it reports success the file holds the whole recording, and if it reports failure no file is changed. Only the trusted perf is run, with arguments that are allowed, and it measures nothing but sleep.", "quantifier": "all command lines, all flags, all contents of files and outputs of perf", "why_tests_cant": "All command lines and file systems.", "anchors": ["src/quipper/quipper.cc: main, ParseOldPerfArguments, ParsePerfArguments, RecordPerf", "src/quipper/quipper_lib.cc", "src/quipper/perf_recorder.cc: RunCommandAndGetSerializedOutput"]}
{"id": "C127", "title": "Temporary files leave nothing behind", "statement": "A temporary file or directory is created where nothing was. When it goes away, it and everything in it is removed and nothing else is, not even what links in it lead to; if something in it may not be removed, that stays with the directories it is in, and nothing more.", "quantifier": "all file systems, all contents of the directory, all sets of entries that may not be removed", "why_tests_cant": "All file systems.", "anchors": ["src/quipper/scoped_temp_path.cc: ScopedTempFile, ScopedTempDir, ~ScopedTempPath, FileDeletionCallback"]}
{"id": "C128", "title": "Mappings recorded in pieces are shown as one", "statement": "If the kernel tells of a mapping of a file in several records, each of which goes on where the last record of a mapping of that process ended (in memory and in the file, with compatible protection and sharing, not a device), the profiles made from the bytes of the recording show samples as if the recording had one record of the whole mapping in the place of the first. If the pieces follow each other with nothing but mappings between them and end before the end of memory and of the file, then at every other record each address of each process is in a mapping exactly if it was in one before: one of the same process and file, with the same addresses and more, each at the same offset in the file.", "quantifier": "all byte strings that are read as a recording without huge pages and without unnamed mappings at 0x400000; all processes and addresses; all numbers and orders of pieces", "why_tests_cant": "Pieces may come in any number, of any sizes, mixed with those of other processes and with forks; which mapping an address ends up in depends on the whole history.", "anchors": ["src/quipper/huge_page_deducer.cc CombineMappings", "src/quipper/perf_parser.cc ParseRawEvents", "src/perf_data_handler.cc Normalizer"]}
{"id": "C129", "title": "Code in huge pages is shown in the file it is from", "statement": "Whatever mappings a recording has, samples are shown as C109 says of the records with two changes. First, mappings of huge pages may get the name, the build ID and (if they had none) the offset of a file that the same process maps later, so that memory and file go together; nothing else changes. All huge pages do that fill the gap between two mappings of a file of a process whose mappings were all found when perf started, each then with the offset that its place in the gap gives; none does that was mapped before the first or after the last mapping that perf found. Second, a mapping that goes on where the newest of its process ends, in memory and in the file, is put into one with it.", "quantifier": "all byte strings that are read as a recording in which no process has both a mapping without a name and one at 0x400000; all processes, addresses, gaps and numbers of huge pages; all orders in which processes are looked at", "why_tests_cant": "Huge pages may be anywhere in any number of processes, and the search visits the processes in an order that depends on hashing.", "anchors": ["src/quipper/huge_page_deducer.cc DeduceHugePages, CombineMappings", "src/quipper/perf_parser.cc ParseRawEvents", "src/perf_data_handler.cc Normalizer"]}
{"id": "C130", "title": "The values of profiles are named after the events, and profiles are valid", "statement": "The values in every profile made from the bytes of a recording are named after the events of the recording: for each event, in order, `<name>_sample` counts its samples and `<name>_event` how often it happened, where <name> is the name in the recording if it has one for each event, else `event_<number>`; the default is the latter of the last event; comments tell the version of perf and its command line, if they are in the recording. The profile is valid as pprof defines it (ids unique, references resolve, one value per type, no two types of one name, default type present), and passes the check of the library, exactly if the names of the events differ and have no zero bytes.", "quantifier": "all byte strings that are read as a recording; all options; all numbers and names of events", "why_tests_cant": "Validity of a profile is about all its parts at once, for every recording; tests look at a few recordings with different event names.", "anchors": ["src/perf_data_converter.cc PerfDataConverter::GetOrCreateBuilder, AddOrUpdateSample", "src/builder.cc Builder::CheckValid, Finalize", "src/quipper/perf_reader.cc ReadEventDescMetadata"]}
{"id": "C131", "title": "Each sample of a recording has its place in the profiles, and nothing else is in them", "statement": "Each sample that a recording holds \u2014 one for a sample record, as many as it says for a record of lost samples \u2014 is counted in exactly one sample of one of the profiles made from its bytes. That profile sample is in the profile of the process of the record (or the only profile), and shows the stack of the record and the labels asked for, both at once. Each sample of each profile is the place of some record, and its values are, for each event, the number of samples with this place and the sum of their weights. Two samples share a place only if they are of one process that executes no program between them; and they do share it if besides they have the same stack and labels, and nothing is mapped over the stack between them.", "quantifier": "all byte strings that are read as a recording whose samples are alike in which optional fields they have, with named mappings and without ARM SPE traces; all options, labels and thread types; all numbers of events, processes and samples", "why_tests_cant": "The claim relates all records of a recording to all samples of all profiles. Tests compare a few sums or a few samples.", "anchors": ["src/perf_data_converter.cc PerfDataConverter::Sample, AddOrUpdateSample, IncBuildIdStats, GetOrCreateBuilder", "src/perf_data_handler.cc Normalizer::Normalize, HandleSample, HandleLost", "src/quipper/perf_parser.cc ParseRawEvents"]}
{"id": "C132", "title": "Seconds become milliseconds", "statement": "A decimal text of seconds becomes the nearest number of milliseconds: exactly the milliseconds it says if it says a whole number of them, the nearest ones for the nine digits perf prints, never fewer for more seconds; texts that are not such decimals, and negative ones, are refused.", "quantifier": "all decimal texts, with any number of digits before and behind the point, and all other texts", "why_tests_cant": "The result goes through three roundings to double precision; which of the infinitely many texts come out exactly is a matter of error bounds, not of samples.", "anchors": ["src/quipper/perf_stat_parser.cc: SecondsStringToMillisecondsUint64", "src/quipper/perf_stat_parser.h: SecondsStringToMillisecondsUint64"]}
{"id": "C133", "title": "The output of perf stat is understood", "statement": "Parsing output made of counter rows, time rows and other rows yields exactly the counters with names and counts in order, all with the time printed last.", "quantifier": "all lists of rows: names without blanks, counts of 64 bits, any indentation, times of whole milliseconds, other rows with fewer than three blanks", "why_tests_cant": "All numbers of rows, all names, counts and times; the parser goes through splitting, trimming, integer and floating-point conversion.", "anchors": ["src/quipper/perf_stat_parser.cc: ParsePerfStatOutputToProto", "src/quipper/string_utils.cc: SplitString, TrimWhitespace"]}
{"id": "C134", "title": "The warnings about a recording are those that are due", "statement": "At the end of a recording a warning is logged for each kind of missing thing of which there are at least two in a hundred \u2014 samples without main mapping (lost samples count as such), without mapping of their own, synthesized lost samples, samples with an address without mapping, frames of call chains without mapping, ends of branches without mapping, SPE records of threads without known process \u2014 and one if there is an event of an unknown attribute; and for no others.", "quantifier": "all recordings (event lists, attributes, build IDs) and all answers of the handler to lost samples", "why_tests_cant": "The counters accumulate over whole recordings of any length and mix signed and unsigned arithmetic; tests see no log messages and no counters near their limits.", "anchors": ["src/perf_data_handler.cc: Normalizer::Normalize, HandleSample, HandleLost, HandleSpe, CheckStat, LogStats"]}
{"id": "C135", "title": "Each record of an ARM SPE trace is shown at its instruction, in the process of its thread", "statement": "Converting the bytes of a recording with ARM SPE traces shows all that is sampled, by sample records and by traces: for each record that the processor has traced, one of the profiles (that of its process, with a profile per process) has a sample that counts for the first event and whose frame is the traced instruction, in the mapping that covers it. The process is the one that the recording's fork and comm records name for the thread in the context packet. Sample records of such a recording are shown as in C109.", "quantifier": "all bytes that are accepted as a recording, all options, machines and injected build IDs; all traces in it; mappings with names, without huge pages or continued mappings, and no process with the name of the mapping of lost samples", "why_tests_cant": "Sampling, decoding, sorting by time, the thread table and the converter's caches act together; tests have one short trace given after the mappings of an in-memory message and never one that went through reading and sorting.", "anchors": ["src/perf_data_handler.cc: HandleSpeAuxtrace, TidToPidMapping, HandleSample", "src/quipper/arm_spe_decoder.cc: NextRecord", "src/quipper/perf_reader.cc: MaybeSortEventsByTime", "src/perf_data_converter.cc: RawPerfDataToProfiles, Sample"]}
{"id": "C136", "title": "The sample that shows the stack of a sample or of a traced record also shows its labels, the counters of ARM SPE records among them", "statement": "For every recording with or without ARM SPE traces, and every set of labels asked for: the profile has, for each sample of the recording, one profile sample that has both its stack and exactly the labels asked for that its record has; and for each record of a trace, one that has both its instruction and exactly the labels asked for that it has: process, thread, their names, the type of the thread, and its latencies in total, until issue and of translation. Labels of samples and of traced records are not mixed up, even at the same instruction.", "quantifier": "all recordings with samples and traces, all label sets, all thread types, all records of traces", "why_tests_cant": "Whether two things sampled are put together depends on all labels and on all other samples of the recording; tests have one trace.", "anchors": ["src/perf_data_converter.cc: AddOrUpdateSample, SampleKey, Sample", "src/perf_data_handler.cc: HandleSpeAuxtrace"]}
{"id": "C137", "title": "Everything sampled is shown, whatever the mappings are", "statement": "In a recording with mappings in pieces, mappings in huge pages, samples and ARM SPE traces together, each sample of an event and each record of a trace has one profile sample that counts it and shows both its stack, looked up in the mappings with their pieces put together and huge pages named after files, and its labels. The mappings shown have the addresses, offsets, names and build IDs of those recorded. Nothing but mappings is changed or left out on the way.", "quantifier": "all bytes that are read as a recording in which no process has both a mapping without a name and one at 0x400000, no process is called [lost], and samples are told apart from records of traces; all options and labels asked for", "why_tests_cant": "All combinations of mappings, traces, samples and labels in one history; tests look at one of these at a time.", "anchors": ["src/perf_data_converter.cc: RawPerfDataToProfiles, Sample", "src/perf_data_handler.cc: Normalize, HandleSpeAuxtrace", "src/quipper/huge_page_deducer.cc: DeduceHugePages, CombineMappings"]}
{"id": "C138", "title": "Reading missing build IDs changes build IDs only, and those of exactly the files with samples for which one is found", "statement": "If a recording is turned into a message with the option to read missing build IDs, the message is the one without the option but for its table of build IDs (and the bit that says there is one). A file in which no sample has an address keeps what the table says. For any other file, what the table says is the build ID found for it, if one is found, and else what it said before. Nothing is found for the kernel itself; for a module it is what its notes in /sys say; for a file, what the first file says that can be read under its name, has a build ID and may be the one mapped, in the root directories of the threads with samples in it, in increasing order, each followed by its process, and then in our own. Dropping unused mappings makes no difference to this. Reading never ends in undefined behaviour, whatever is in these files.", "quantifier": "all bytes that are read as recordings, all options, all file systems in which readable files are smaller than 2^63 bytes and there is no /proc/0", "why_tests_cant": "All states of the file system and all sets of threads that have samples in a file; tests cannot set up /proc and /sys.", "anchors": ["src/quipper/perf_parser.cc: FillInDsoBuildIds, FindDsoBuildId, ReadElfBuildIdIfSameInode", "src/quipper/dso.cc: ReadElfBuildId, ReadModuleBuildId, SameInode", "src/quipper/perf_reader.cc: InjectBuildIDs"]}
{"id": "C139", "title": "A build ID read from a file is that of the file that was mapped", "statement": "If reading missing build IDs puts a build ID into the table for a name, it is that of the file that was mapped under the name: one with the device and inode that the mapping tells. A build ID that the kernel told is not replaced by that of another file.", "quantifier": "all recordings, all file systems, all mappings of a name", "why_tests_cant": "Files are replaced, and processes in containers see different files under one name; tests have one file.", "anchors": ["src/quipper/perf_parser.cc: ReadElfBuildIdIfSameInode, FindDsoBuildId, ProcessEvents", "src/quipper/dso.cc: SameInode", "src/quipper/dso.h: DSOInfo"]}
{"id": "C140", "title": "Made-up addresses do not tell where things are in memory", "statement": "The address mapper is used so that profiles do not give away where programs are in memory. If the ranges it is asked to map are moved about in memory, each as a whole, so that different addresses stay different and places within pages stay the same, then all its answers are the same as before, and so are the made-up address, the identifier and the offset it gives for each address asked for. In particular ranges that do not meet can be anywhere, in any order. (The place within a page and which ranges meet can be told.)", "quantifier": "all histories of requests whose ranges do not end exactly at 2^64 and leave room in the made-up space (or without page alignment), all ways of moving them", "why_tests_cant": "It relates two runs for all layouts of memory; a test has one layout.", "anchors": ["src/quipper/address_mapper.cc: MapWithIDInternal, GetMappedAddress, GetMappedAddressIDAndOffset, GetRangeContainingAddress", "src/quipper/perf_recorder.cc: ParsePerfDataFileToString"]}
{"id": "C141", "title": "A remapped recording does not tell where things are in memory", "statement": "If a recording is parsed with remapping of addresses, everything that comes out of it (events, what is reported about samples, counters) is the same as for the same recording with things elsewhere in memory: in each process, every mapping is moved as a whole, places within pages stay the same, the kernel is at one place for all processes and a forked process has the memory of its parent, and the addresses of samples, call chains, branches and data move along. (What can be told: addresses in no mapping, but for their highest hexadecimal digit; branches with a null entry before the last, which are left as they are; and where the kernel is, if its first mapping begins below the offset it gives.)", "quantifier": "all recordings of known events whose mappings do not reach the end of memory and leave room in the made-up space, all ways of moving things", "why_tests_cant": "It relates two runs of the parser for all layouts of memory of all processes; a test has one layout and compares with fixed numbers.", "anchors": ["src/quipper/perf_parser.cc: ProcessEvents, MapSampleEvent, MapIPAndPidAndGetNameAndOffset, MapMmapEvent, MapForkEvent, GetOrCreateProcessMapper", "src/quipper/address_mapper.cc: MapWithIDInternal, GetMappedAddressIDAndOffset"]}
{"id": "C142", "title": "Processes do not influence what is reported about each other", "statement": "Two recordings have the same events at the same positions as far as the kernel, some processes and the processes that forked them are concerned; at all other positions each of them may have anything about other processes: mappings, samples, commands, forks, even of children of the former. Then what the parser makes of the events about the former is the same: the remapped addresses of mappings and samples, the files and offsets reported for addresses, call chains, branches and data, and the commands. This is so if mappings without samples are kept. (What does matter: a child has the memory of its parent; and if mappings without samples are dropped, the samples of a child decide about mappings of its parent.)", "quantifier": "all pairs of recordings of known events whose mappings do not reach the end of memory and leave room in the made-up space, all sets of processes closed under parents", "why_tests_cant": "It relates two runs of the parser for all behaviours of all other processes; a test has one set of processes.", "anchors": ["src/quipper/perf_parser.cc: ProcessEvents, MapSampleEvent, MapMmapEvent, MapForkEvent, MapCommEvent, GetOrCreateProcessMapper"]}
