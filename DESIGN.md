# Design of the formal model

The subject is google/perf_data_converter as found in `/repo`.  The model is written in Lean 4
under `lean/Verif/`.  It was written by reading the C++ as text; the C++ was never built or run.

## Trusted base

* Lean's kernel (Lean 4.33.0).
* The axioms `propext`, `Classical.choice` and `Quot.sound`, which are Lean's own.  No theorem uses any
  other axiom; many use fewer.  There is no `sorry`, `admit`, `native_decide` or `bv_decide`.
* The correspondence between the C++ and the Lean definitions, which was made by hand.  Every definition
  of the model cites the file and lines it models and states its simplifications.
* The reading of the English properties in `properties.jsonl` as the theorems named in `MANIFEST.json`.

## Conventions

* Unsigned machine integers are natural numbers together with an explicit reduction modulo `2^64`
  (or `2^32`, `2^16`, `2^8`) at each C++ operation that can wrap.  Signed integers are `Int` with the
  overflow as an abort.
* `CHECK` failures, `LOG(FATAL)`, uncaught exceptions, undefined behaviour, endless loops and out-of-bounds accesses are
  separate outcomes of the model (usually the outer `none`), never silently totalised.
* `std::map`, `absl::btree_map` are strictly key-sorted association lists.  Hash maps are association
  lists whose iteration order is never observed, or an arbitrary permutation where the code iterates
  (for example `order` in `HugePages.deduceHugePages`).
* Byte strings are `List UInt8` or lists of naturals below 256.  The host is little endian, has 64-bit
  pointers and `size_t`, and structs have the layout of x86-64 and aarch64 Linux (as the `CHECK`s for padding in the C++ demand).
* MD5 is an arbitrary function.  `strtol`, `bswap`, `getopt` are modelled by their documented effect, `strtod` and the arithmetic of `double` as IEEE 754 binary64, correctly rounded to nearest, in the C locale and without contraction or extended precision.
* Protobuf messages are records with `Option` for optional fields (in `Serial`: association lists of fields),
  without their wire encoding.  A read of an absent field gives the default, as in C++.
* Memory is unlimited: that counts found in a file can make the code allocate without bound is not modelled.

Layout: for each area there is a model file, a small specification (`Spec`), helper lemmas, and files `Props*.lean`
with the property theorems.  Beside each theorem an `example` shows that
its hypotheses are met by a concrete case.

Where the code violates a property, the violation is proved with a concrete witness
(theorem name ending in `_violated`), and the strongest version that does hold is proved with the suffix `_partial`.

Method: invariants by induction over histories of calls or events (`IntervalMap`, `AddressMapper`, `Builder`, `Normalizer`,
`Converter`, `Parser`); refinement to a specification that says what the result is in terms of the history
(last call touching a key, newest mapping covering an address); round trips of writer and reader (`Buffer`, `Sample`, `Event`,
`Attr`, `Meta`, `Serial`, `File`); and, for decision logic, equivalence with a declarative predicate (`Builder`, `Command`).

## What is modelled

| area of the model | files of `/repo/src` | what is left out |
|---|---|---|
| `IntervalMap` | `intervalmap.h` | nothing |
| `AddressMapper` | `quipper/address_mapper.{h,cc}` | `DumpToLog` |
| `Util` | `quipper/binary_data_utils.{h,cc}`, `address_context.cc`, `perf_buildid.cc`, part of `perf_data_utils.cc` | MD5 |
| `Buffer` | `quipper/buffer_reader.*`, `buffer_writer.*`, `data_reader.*`, `data_writer.*` | |
| `Text` | `quipper/string_utils.cc`, `perf_data_utils.cc` (CPU lists, build IDs), `perf_stat_parser.cc` | doubles are multiples of `2^-1074`, every operation correctly rounded; the lemmas about rounding use the rational numbers and tactics of Mathlib |
| `Builder` | `builder.{h,cc}` | `Emit`, `Marshal`, `MarshalToFile` (gzip) |
| `Spe` | `quipper/arm_spe_decoder.{h,cc}` | log messages |
| `Event` | `quipper/perf_data_utils.cc` (sizes), `kernel/perf_event.h`, `kernel/perf_internals.h` (layouts) | `GetEventName`, `GetMetadataName` (texts for logs) |
| `Sample` | `quipper/sample_info_reader.{h,cc}` | |
| `HugePages` | `quipper/huge_page_deducer.{h,cc}` | |
| `Normalizer` | `perf_data_handler.{h,cc}` | the texts of the warnings of `LogStats`; whether the handler accepts a synthesized lost sample is an input of the statistics |
| `Converter` | `perf_data_converter.{h,cc}` | log messages |
| `Parser` | `quipper/perf_parser.{h,cc}` | log messages |
| `Command` | `quipper/perf_option_parser.cc`, `perf_recorder.cc` | what perf does |
| `Names` | `quipper/perf_reader.cc`, `perf_parser.cc` (build IDs and names of files, sorting) | reading ELF files and `/proc` (a parameter) |
| `Attr` | `quipper/perf_reader.cc`, `perf_serializer.cc` (attributes, ids) | |
| `Meta` | `quipper/perf_reader.cc` (header, sections, metadata) | |
| `Serial` | `quipper/perf_serializer.cc` (records to messages and back) | |
| `Data` | `quipper/perf_reader.cc`, `perf_serializer.cc` (the data section, skipping, callbacks) | compressed records are kept as they are, as in the C++ |
| `File` | `quipper/perf_reader.cc` (whole files and pipes, both byte orders, the old form) | `FileReader`: bytes are read from memory (C121 says that this is the same) |
| `Whole` | `perf_data_converter.cc` (`RawPerfDataToProfiles`): reader, build IDs, sorting, huge pages, parser and converter one after the other | the reader's statistics; memory exhaustion |
| `Tool` | `perf_to_profile.cc`, `perf_to_profile_lib.cc`, `perf_protobuf_io.cc`, `conversion_utils.cc`, `perf_converter.cc`, `Serialize` and `Deserialize` of `perf_reader.cc` | how a message of perf data is written as text or bytes and read back (open functions), what is made of a message that is accepted (which bytes are accepted is modelled), the encoding of profiles; `getopt` and the file system are modelled as far as they are used |
| `Disk` | `quipper/file_reader.{h,cc}`, `file_utils.cc`, `dso.cc` (build IDs in files) | libelf; a file does not change while it is read |
| `Run` | `quipper/run_command.cc`, `quipper.cc`, `quipper_lib.cc`, `perf_recorder.cc` (the run itself), `scoped_temp_path.cc` | the kernel is modelled as far as descriptors, process groups, signals and entries of directories go |
| `Missing` | `quipper/perf_parser.cc`, `dso.{h,cc}` (reading missing build IDs) | libelf and the file system (parameters); it does not change meanwhile |

Not modelled: logging, `compat/`, `base/`, libelf (its sections and notes are inputs), protobuf and gzip encodings, and the test utilities.

Notes on single points: comparisons of the sample type with `PERF_SAMPLE_MAX` are done on promoted integers as in C++;
event sizes are 16-bit fields and are reduced where the C++ stores them.

## Plan and results per property

For every property: the modules with its theorems, the theorems named in the manifest, what remains open.
Theorems ending in `_violated` show by a witness that the code breaks the property as stated.

### C01 IntervalMap: last write wins (proved)

Modules: `Verif/IntervalMap/Props.lean`.

Refinement to the last call touching the key; aborts exactly on empty intervals.

* `IntervalMap.C01_last_write_wins` — After any sequence of calls (that does not abort), `Lookup(k)` returns what the most recent call touching `k` left there.
* `IntervalMap.run_isSome_iff` — A call sequence aborts exactly when some call has an empty interval (the `CHECK_LT`s).

### C02 IntervalMap: intervals stay disjoint and FindNext returns the right one (partial)

Modules: `Verif/IntervalMap/Props.lean`.

Invariant proved. The documented FindNext contract is false of the code (witness proved); what FindNext does is characterised and it meets its contract for keys in gaps.

* `IntervalMap.C02_sorted_disjoint` — Invariant. After any sequence of calls the stored intervals are non-empty, sorted and disjoint, and `Size` is their number.
* `IntervalMap.C02_findNext_partial` — `FindNext` (what the code does). `FindNext(key)` returns the stored interval with the least start strictly greater than `key`, and fails exactly if no interval starts after `key`. The header promises more, see `C02_findNext_violated`.
* `IntervalMap.C02_findNext_doc_partial` — Documented contract holds between intervals. When no stored interval contains `key`, `FindNext` meets its documented contract.
* `IntervalMap.C02_findNext_violated` — Violation. The documented contract of `FindNext` is false of the code: with the single interval `[10, 20)` the call `FindNext(15)` fails although `15` is inside it (also for the start `10`).

### C03 AddressMapper: remapping is injective and keeps distances inside a range (partial)

Modules: `Verif/AddressMapper/Props.lean`.

Injectivity and distances proved for all histories with room in the remapped space (always, without page alignment). Counterexamples proved for an exhausted remapped space with page alignment (collision) and for a range ending exactly at 2^64 (undefined behaviour).

* `AddressMapper.C03_injective` — No undefined behaviour and injectivity: two different real addresses never get the same remapped address, whatever the history of requests (including refused ones).
* `AddressMapper.C03_distance` — Distances: inside one surviving piece of a request, remapped addresses keep their distance.
* `AddressMapper.C03_exhausted_violated` — Fails when the remapped space is exhausted: with 4096-byte pages, two large disjoint ranges are both accepted, and their translations collide (the end of the second one wraps around).
* `AddressMapper.C03_top_of_memory_violated` — The restriction to ranges that do not end exactly at `2^64` is needed: with two ranges in place, mapping the last page of the address space runs an iterator past the end (undefined behaviour).

### C04 AddressMapper: newest mapping wins, with continuous offsets (proved)

Modules: `Verif/AddressMapper/Props.lean`.

Refinement to a piece specification, and the specification reports the newest accepted request. The stronger reading (an older range survives a partial overlap) is refuted.

* `AddressMapper.C04_refines_pieces` — Refinement: as long as the remapped space is not exhausted, the answers of all requests and all later lookups are those of the piece specification.
* `AddressMapper.C04_refines_pieces_unaligned` — Without page alignment no room is needed: if all requests succeeded, lookups are those of the specification.
* `AddressMapper.C04_newest_wins` — Newest wins: every address that translates reports the id and offset of the most recent accepted request whose range contains it.
* `AddressMapper.C04_last_request_found` — The newest request itself always translates: an address of the last request, if it was accepted, is found.
* `AddressMapper.C04_partial_overlap_drops_violated` — The stronger claim that an address keeps translating as long as *some* accepted request contains it is false: a request that overlaps an older one only partly makes all of the older one disappear. Here `[0,100)` and then `[50,150)`: address 10 is no longer mapped.

### C05 AddressMapper: page offset of addresses is preserved (proved)

Modules: `Verif/AddressMapper/Props.lean`.

For all histories with room in the remapped space.

* `AddressMapper.C05_page_offset` — With a non-zero page alignment remapping keeps the offset in the page, after any history.

### C06 AddressMapper: a failed request changes nothing (partial)

Modules: `Verif/AddressMapper/Props.lean`.

False of the code: a refused page-cutting request loses the old range (witness proved). What holds: early refusals change nothing, other refusals only lose the enclosing range.

* `AddressMapper.C06_violated` — Is false in general: a request that would cut a page is refused, but the range it lies in has already been removed. Page size 4096, `[0x1000, 0x4000)` is mapped, then `[0x1800, 0x1900)` is refused, and address `0x3000` no longer translates.
* `AddressMapper.C06_early_refusal_partial` — (what holds): a request refused for its size or for overflowing the address space leaves the mapper exactly as it was, in any state whatsoever. Missing: the other refusals, see `C06_violated`.
* `AddressMapper.C06_refusal_is_local_partial` — (what holds): any refused request only loses addresses of the one range that properly contains it; every other address translates as before.

### C07 Profile builder: string table interning (proved)

Modules: `Verif/Builder/Props.lean`.

* `Builder.stringId_zero_iff` — Whatever happened before, the id of a string is 0 exactly for the empty string.
* `Builder.stringId_eq_iff` — Two calls get the same id exactly when they pass the same string, however many calls are made before and between them.
* `Builder.stringId_stays` — An id stays valid: after any later calls the table entry at that id is the string.
* `Builder.stringTable_eq` — The string table is the empty string followed by the distinct strings asked for, in order of first request.
* `Builder.stringTable_nodup` — Hence it has no duplicates.

### C08 Profile builder: function interning (proved)

Modules: `Verif/Builder/Props.lean`.

* `Builder.functionId_eq_iff` — Two calls get the same function id exactly when they pass the same four values.
* `Builder.functionId_stays` — An id names the record that holds it, and that record resolves to the four values, now and after any later calls.
* `Builder.functionIds_numbered` — Function ids are 1, 2, 3, ... in the order of the records.
* `Builder.functions_eq` — The records resolve to the distinct functions asked for, in order of first request.

### C09 Profile validity check accepts exactly valid profiles (proved)

Modules: `Verif/Builder/Props.lean`.

The two theorems on samples apart show what the check does not establish: ids of 0 and indices beyond the range of int are accepted.

* `Builder.checkValid_iff_valid` — `CheckValid` accepts exactly the valid profiles.
* `Builder.checkValid_narrowing_violated` — The narrowing matters: with a default sample type beyond the range of an `int` the check can accept a profile whose default sample type is not one of its sample types.
* `Builder.checkValid_zero_ids_violated` — What the check does not establish: an accepted profile may hold a mapping, a function or a location with id 0 and string indices outside the string table.

### C10 Finalize: raw addresses become locations without losing order or identity (proved)

Modules: `Verif/Builder/Props.lean`.

* `Builder.finalize_locations` — Finalizing a profile without locations gives every distinct address one location, numbered from 1 in order of first use; every sample's location list resolves to its addresses; nothing else in the samples or the profile changes.

### C11 Finalize: a location is attributed to the mapping that contains it (proved)

Modules: `Verif/Builder/Props.lean`.

* `Builder.finalize_mapping_sound` — Finalize changes nothing in a location but its mapping; it assigns a mapping only to a location that has none, and only one whose range, ends included, holds the address.
* `Builder.finalize_mapping_complete` — When mappings do not overlap, a location without a mapping whose address lies in the range of one is attributed to that one.
* `Builder.finalize_created_mapping` — For a profile that had no locations: every created location starts without a mapping.
* `Builder.finalize_limit_included` — The end of a range is included: an address equal to the limit of a mapping that no other mapping contains is attributed to it.

### C12 ARM SPE decoding never reads outside the trace buffer and always terminates (proved)

Modules: `Verif/Spe/Props.lean`.

* `Spe.nextRecord_safe` — On any bytes, at any position in them, whatever the byte order, the address of the buffer and the kinds of addresses seen so far, `NextRecord` returns without reading outside the buffer, stays inside it, never changes it, and consumes at least one byte whenever it reports a record.
* `Spe.decodeAll_terminates` — Decoding a whole trace ends, after at most one call per byte and one more; it yields no more records than there are bytes; and allowing more calls changes nothing.

### C13 ARM SPE decoding: failure is stable and leaves the output alone (proved)

Modules: `Verif/Spe/Props.lean`.

* `Spe.nextRecord_failure_stable` — A call that fails leaves the caller's record as it was, and from then on every call fails, leaving record and position as they are.

### C14 ARM SPE decoding recovers encoded records (proved)

Modules: `Verif/Spe/Props.lean`.

All packet kinds except alignment packets, which are C59.

* `Spe.decodeAll_encoded` — Decoding the bytes of any sequence of records, each any sequence of packets closed by an end or timestamp packet, in either byte order and at any address, yields exactly those records, in order, and then stops with every byte consumed.
* `Spe.nextRecord_encoded` — One record: whatever follows it in the buffer is left unread.

### C15 Hex strings round-trip (partial)

Modules: `Verif/Util/Props.lean`.

Round trip, digits, injectivity and write bounds proved for all inputs. Rejection of non-hex pairs holds only for text without NUL, white space and signs: counterexamples proved.

* `Util.C15_roundtrip` — Text produced from bytes decodes to the same bytes: with a destination of at least that many bytes the decoding succeeds, the destination starts with the bytes and is otherwise unchanged.
* `Util.C15_digits` — The text has two characters per byte, the lowercase hexadecimal digits of its high and low half.
* `Util.C15_injective` — Different byte strings have different texts.
* `Util.C15_writes_within` — Whatever the text, decoding changes at most the first `length` bytes of the destination, and at most one byte per pair of characters.
* `Util.C15_rejects_non_hex_partial` — Partial: on text free of NUL, white space and sign characters, decoding succeeds exactly when every pair it reads consists of two hexadecimal digits, and then stores the encoded bytes. What is missing: the same for all text; `C15_accepts_non_hex_violated` shows that it is false.
* `Util.C15_accepts_non_hex_violated` — Fails as stated: pairs that are not two hexadecimal digits but that `strtol` accepts are decoded: `"+1"`, `" 1"` and `"-1"`, and pairs starting with a NUL byte.

### C16 Alignment and byte-order helpers (proved)

Modules: `Verif/Util/Props.lean`.

* `Util.C16_align` — `Align<2^k>(v)` is the least multiple of `2^k` that is at least `v`, whenever there is such a multiple below `2^64`.
* `Util.C16_align_wraps` — The boundary: when no such multiple exists the result wraps to zero.
* `Util.C16_swap_reverses` — Swapping an integer of a supported size gives the integer whose bytes are reversed.
* `Util.C16_swap_involutive` — Swapping twice gives the original value.
* `Util.C16_reverseByte_reverses` — `ReverseByte` reverses the bits of a byte.
* `Util.C16_reverse_involutive` — Reversing the bits of every byte of a bit field twice gives the field back.
* `Util.C16_getNumBits` — `GetNumBits` counts the set bits.

### C17 Buffer reader never leaves the buffer (partial)

Modules: `Verif/Buffer/Props.lean`.

Full refinement to a cursor for all call sequences. As stated it is false in one point: a failed length-prefixed string read consumes the length (witness proved).

* `Buffer.C17_refines_cursor` — Every sequence of calls on a reader of a buffer runs without touching memory outside of the buffer, returns what the cursor specification says, and leaves the cursor inside the buffer. The buffer is limited to `2^63` bytes, the maximum size of an object; sizes and offsets are arbitrary 64-bit values.
* `Buffer.C17_failure_moves` — A call that fails does not move the position, except that a length-prefixed string whose length could be read but whose bytes are not there leaves the position after the length.
* `Buffer.C17_success_exact` — A successful read of `n` bytes returns exactly the bytes at the old position and moves by exactly `n`.
* `Buffer.C17_sized_string_violated` — As stated, is false for the length-prefixed string read: it fails and yet moves.

### C18 Buffer writer never leaves the buffer (partial)

Modules: `Verif/Buffer/Props.lean`.

Exact effect of every call sequence, except WriteString calls whose position + size overflows 64 bits: these write out of bounds (witness proved).

* `Buffer.C18_step_partial` — One call, partial (excluded by `WOp.wf`: `WriteString` with `position + size ≥ 2^64`, see `C18_writeString_violated`, and strings of almost `2^32` bytes): no memory outside the buffer is touched, and the call has exactly the effect of `specWrite`: a call that succeeds replaces exactly the addressed bytes by the bytes it was given and advances by their number; one that fails changes neither the buffer nor the position; a write that fits and does not start at the end succeeds.
* `Buffer.C18_run_partial` — Sequences of calls, partial in the same way: every sequence of calls runs inside the buffer and has exactly the specified effect.
* `Buffer.C18_untouched` — A byte outside of the written range keeps its value.
* `Buffer.C18_written` — The written range holds the written bytes.
* `Buffer.C18_writeString_violated` — Is false in general: writing a two-byte string into a field of `2^64 - 2` bytes at position 4 of an 8-byte buffer passes the size check because `position + size` wraps, and the padding is then written outside of the buffer.

### C19 Values and strings written are read back (proved)

Modules: `Verif/Buffer/Props.lean`.

* `Buffer.C19_read_back` — Reading: a buffer that holds the representation of a sequence of items, native with `cross = false` or of the opposite byte order with `cross = true`, is read back item by item.
* `Buffer.C19_written` — Writing: when there is room, the calls that write a sequence of items all succeed and store exactly its native representation.
* `Buffer.C19_roundtrip` — Items written to a fresh buffer that has room for them are read back unchanged from that buffer.

### C20 CPU lists: format then parse is the identity (partial)

Modules: `Verif/Text/Props.lean`.

Proved for non-empty strictly increasing lists without the two largest numbers together; false for the others (witnesses proved).

* `Text.C20_roundtrip_partial` — Partial: for a non-empty, strictly increasing list of 32-bit numbers that does not contain both of the two largest 32-bit numbers, parsing the formatted text gives the list back. Missing: all other lists, for which the claim is false (next theorems).
* `Text.C20_empty_violated` — The empty list is written as the empty text, which does not parse.
* `Text.C20_unsorted_violated` — A decreasing or repeated neighbour is swallowed into a range that does not parse.
* `Text.C20_largest_violated` — The list of the two largest 32-bit numbers is written as a range whose parsing never ends.

### C21 Build-ID strings: padding and trimming (proved)

Modules: `Verif/Text/Props.lean`.

* `Text.C21_perfize_length` — A padded build ID has exactly 40 characters.
* `Text.C21_perfize_idempotent` — Padding is idempotent.
* `Text.C21_perfize_keeps` — Padding keeps the leading characters: of a short string all, of a long one the first 40; and what it adds are zeros.
* `Text.C21_trim_exact` — Trimming removes exactly the trailing groups of eight zeros: the result is the unique string that differs from the argument by whole groups and does not end in another group.
* `Text.C21_trim_idempotent` — Trimming is idempotent.
* `Text.C21_trim_perfize` — Trimming undoes padding up to trailing zero groups: trimming a padded string is trimming the string completed with zeros to a multiple of eight characters.
* `Text.C21_trim_perfize_groups` — In particular a build ID made of whole groups comes back, up to trailing zero groups.
* `Text.C21_perfize_trim` — Padding undoes trimming of a 40-character build ID.

### C22 Combining split mappings preserves the address space (partial)

Modules: `Verif/HugePages/Combine.lean`, `Verif/HugePages/Complete.lean`, `Verif/Whole/Props5.lean`.

Everything but the offset of anonymous memory, which is merged into a data mapping before it and then has an offset behind that data (proved).

* `HugePages.combine_keeps_partial` — The part that holds: combining keeps every event that is not a mapping, in order, and does not increase the number of events; an address of a process is mapped afterwards exactly if it was mapped before; and for a mapped address the mapping that counts says the same as before about execution, and, unless it was anonymous memory, about the file offset; the file name stays unless it stands for a huge page.
* `HugePages.combine_complete` — Nothing is left to combine. Two consecutive mappings of one process in the result never are adjacent pieces of one file that fit: same name (not that of anonymous memory or a device), same flags and protection, adjacent in memory and in the file.
* `HugePages.merge_decision` — Which mappings are combined with the one before.
* `HugePages.combine_complete_all` — Nothing is left to combine. Of two consecutive mappings of one process in the result, the second never continues the first.
* `HugePages.combine_offset_violated` — Fails for anonymous memory: it is merged into the data mapping before it, and then has an offset behind the data of the file.
* `Whole.identity_seen` — What identifies the file of a mapping when pieces of it are combined (C22): device and inode count only for events of type `PERF_RECORD_MMAP2` (10) that do not have a build ID in their place, bit 14 of the flags.

### C23 Huge page deduction only relabels (proved)

Modules: `Verif/HugePages/Deduce.lean`, `Verif/HugePages/Dynamic.lean`.

* `HugePages.deduce_relabels` — Deducing huge pages never aborts, whatever the events and whatever order the hash map has. The events stay in number and order, and each of them is what it was, or it is a mapping of a huge page that got the name, the identity and, if it had none, the matching file offset of a later file mapping of the same process; its process, addresses, protection and flags are unchanged.
* `HugePages.deduce_dynamic` — A mapping that was recorded while the process ran, before the first or after the last of its synthesized mappings (those with time 0), is not touched.

### C24 Sample fields round-trip through the binary format (partial)

Modules: `Verif/Sample/Props.lean`.

Reading is proved for every event that has the documented layout, in both byte orders. Write then read needs no_hw_idx of the sample to agree with the attribute; without that it is false (proved).

* `Sample.read_layout` — The sample part of an event carries the sample: if the bytes behind the event's own data are the fields of `s` in the documented layout, in either byte order, reading gives `s`, restricted to the selected fields, and it does so only because it consumed all these bytes.
* `Sample.write_read_partial` — Writing the sample into an event that has exactly the predicted room, and reading it back, gives the sample restricted to the selected fields.
* `Sample.write_read_violated` — Without `HwIdxOk` is false: a sample whose `no_hw_idx` does not agree with the attribute is written in a form that reads back as something else, or not at all.

### C25 Sample size prediction (proved)

Modules: `Verif/Sample/Props.lean`.

* `Sample.sampleDataSize_exact` — For every attribute, supported or not, and every sample, the predicted size is a multiple of 8 and it is what the writer returns and the number of bytes it writes; no other bytes change.
* `Sample.sampleDataSize_layout` — The predicted size is the size of the fields in the documented layout, and a multiple of 8.
* `Sample.write_layout` — (first part): if there is room behind the event's own data for as many bytes as predicted, exactly that many bytes are written, they are the fields of the sample in the documented layout, nothing else changes, and the verdict says whether they fill the event.

### C26 Sample parsing is safe on arbitrary bytes (proved)

Modules: `Verif/Sample/Props.lean`.

* `Sample.read_safe` — Whatever the bytes of the event, the attribute and the byte order, reading stays within the event and aborts nowhere. If it succeeds, the bytes behind the event's own data are, all of them, the fields of the sample that was read, in the documented layout.
* `Sample.read_lists_bounded` — The lists and raw data read are no longer than the bytes of the event.

### C27 Reading the data section: events tile it exactly (partial)

Modules: `Verif/Data/Props.lean`, `Verif/File/Props3.lean`, `Verif/File/Safe2.lean`.

Tiling is proved for all data. Termination and safety for all data in which reading does not come to a record of BPF metadata; for those they are violated (proved).

* `Data.section_tiled` — Tiling. When reading the data section succeeds, the section lies inside the file, reading ends exactly at its end, and the section is a row of records without gaps: each as long as its header says (at least the 8 bytes of the header), with the data of a tracing unit behind it. The events are those of these records, in this order, and `Effect` says what each record adds.
* `Data.section_alone` — What the section is read as depends on its bytes (and the state before) only: neither on where the section is, nor on what else is in the file.
* `Data.section_append` — Two sections in a row are read like one: no state but the one that is shown is carried from event to event.
* `Data.section_safe_partial` — Termination and safety. If the attributes of the recording were accepted by the reader, then reading the data section ends and neither aborts nor reads outside the memory of an event, unless it comes to a record of type 84 (metadata of BPF programs). For those the claim is false: `section_safe_violated`.
* `Data.section_safe` — Without such records there is no exception.
* `Data.section_safe_violated` — The safety claim of C27 and C46 fails for metadata of BPF programs: the record announces `2^58` entries, the check of the size wraps around, and entries are read behind the end of the event.
* `File.read_safe_partial` — Whatever the bytes are, reading a recording ends, without aborting, and without touching anything outside of the bytes or of an event, unless the bytes hold a list of CPUs that is never completed (C20) or a record of BPF metadata (see `section_safe_violated`). The order of bytes is the one that the first bytes of the recording tell.
* `File.surplus_refused` — A record with bytes behind its content is refused, unless the record has sample data, to which these bytes would belong.

### C28 Metadata sections round-trip (partial)

Modules: `Verif/File/Props.lean`, `Verif/Meta/Props.lean`, `Verif/Meta/Props2.lean`, `Verif/Meta/Props4.lean`.

For metadata that satisfy the conditions spelled out in Meta/Spec.lean (Faithful); what happens outside of them is shown by the _violated theorems.

* `Meta.write_metadata` — The metadata is written as the file format has it. The room must suffice for it and, if the topology of a hybrid machine is not written at its end, one byte more: at the end of the buffer not even nothing can be written.
* `Meta.write_metadata_refused` — With too little room nothing is written outside of it: writing returns false.
* `Meta.read_metadata` — The same for a state that holds nothing else.
* `Meta.metadata_round_trip` — Metadata written to a file is read back unchanged. `old` are attributes read before, replaced by those of the event descriptions.
* `Meta.nul_violated` — Violated: a text is cut at its first NUL.
* `Meta.build_id_violated` — Violated: a build ID of three bytes is read with four.
* `Meta.no_pmus_violated` — Violated: an empty list of PMUs is written but cannot be read.
* `Meta.entries_violated` — Violated: of several entries with numbers of CPUs only the first one is written.
* `Meta.topology_violated` — Violated: cores and sockets cannot be read if the number of CPUs is not in the file.
* `Meta.hybrid_violated` — Violated: of the CPUs of a hybrid topology, given as text and as numbers, only the text is written.
* `File.file_round_trip` — A recording that is written and read again has the same events in the same order, the same samples are reported, and the same is known beside the events: only build IDs that the file does not hold are missing, and the build IDs in the mappings are added.

### C29 Sorting events by time is a stable permutation (proved)

Modules: `Verif/Names/Props.lean`.

* `Names.sorted` — If all attributes record the time, the events are put in order of time and events of the same time keep their order; nothing else changes. If some attribute does not, nothing changes at all.
* `Names.stable_unique` — There is only one such order.

### C30 Renaming files keeps event sizes consistent (partial)

Modules: `Verif/Names/Props.lean`.

Names and sizes for names below 2^31 bytes; the new size need not fit the 16 bits it has in a file (proved).

* `Names.renamed_events` — Renaming replaces exactly the names of mapping events found in the table; nothing else of an event changes but the size of the renamed, by the difference of the room for the names.
* `Names.renamed_entries` — The entries of build IDs found in the table get the new name, all others stay; everything else about the recording stays, and so do the numbers of events and entries.
* `Names.rename_aborts_iff` — Renaming only aborts without attributes.
* `Names.rename_too_big_violated` — With a long name the new size does not fit the 16 bits it has in a file, although renaming succeeds.

### C31 Remapped addresses hide kernel/unmapped raw addresses consistently (proved)

Modules: `Verif/Parser/Props.lean`.

* `Parser.unmapped_marked` — With remapping, a sample address in no mapping is replaced by one whose highest hexadecimal digit is 8 and whose other digits are the same; the normalizer finds no mapping for such an address, whatever mappings it knows.
* `Parser.marked_only_unmapped` — And only such addresses get the mark, if the mappings fit into half of the address space.

### C32 Branch stack clean-up (proved)

Modules: `Verif/Parser/Props.lean`, `Verif/Parser/Props3.lean`.

A malformed branch stack keeps its raw addresses even with remapping.

* `Parser.nullsLast_iff`
* `Parser.branches_reported` — If the null entries of a branch stack are all at its end, the entries before them are reported, in order; if not, none are, and the stack stays as it was.
* `Parser.null_iff` — An entry of a branch stack is null if both of its addresses are 0.

### C33 Normalizer: a sample address is resolved to the newest mapping of its process (partial)

Modules: `Verif/Normalizer/Props.lean`.

Every reported address lies in its mapping, which is the newest one of the process; exec does not drop mappings, and a fork from a process without mappings does not clear those of a reused number (both proved).

* `Normalizer.process_reports` — Everything the handler is told follows from the history of events: each sample, lost sample, mapping and command name is reported as `Spec.lean` says.
* `Normalizer.mapping_contains` — Whatever the history, every address of a reported sample lies in the mapping given for it.
* `Normalizer.lookup_ideal_partial` — In a history without an `exec` over mappings, and without a fork onto a stale process number from a process without mappings, the mapping used for an address is the one the process really has there. The full property drops these two conditions: see `lookup_exec_violated` and `lookup_fork_violated`.
* `Normalizer.lookup_exec_violated` — The full property fails: after an `exec` the old mappings of the process are still used.
* `Normalizer.lookup_fork_violated` — The full property fails: a process number is reused by a fork from a process without mappings, and keeps the mappings of the dead process.
* `Normalizer.contextFromHeader_iff` — The context of a sample is that of its cpumode, the low three bits of the flags in its header: 1 kernel, 2 user, 3 hypervisor, 4 guest kernel, 5 guest user; no header or any other mode leaves it open.

### C34 Normalizer: build ID precedence (proved)

Modules: `Verif/Normalizer/Props.lean`.

For build IDs without NUL; see C35 for those with one.

* `Normalizer.buildId_precedence` — The build ID of a mapping: the mmap event's own if it has one (the source tells whether it agrees, up to trailing zeros, with the file-name table); else the one of the last record for the file name; else, for a mapping named `[kernel.kallsyms]…`, the kernel's; else none.
* `Normalizer.process_reports` — Everything the handler is told follows from the history of events: each sample, lost sample, mapping and command name is reported as `Spec.lean` says.
* `Normalizer.isKernelNonModuleName_iff` — The names that stand for the kernel itself.

### C35 Normalizer: no input aborts the process (partial)

Modules: `Verif/Normalizer/Props.lean`.

Characterised exactly: the normalizer finishes iff every mapping is non-empty and ends below 2^64, given a readable perf version and NUL-free build IDs. Each of the three conditions is needed (proved).

* `Normalizer.process_total_partial` — The normalizer finishes exactly when every mapping ends below `2^64` and is not empty, if the version of perf can be read and the build IDs of mmap events have no NUL. The full property has none of these conditions: see `abort_wrap_violated`, `abort_version_violated` and `abort_buildId_violated`.
* `Normalizer.abort_wrap_violated` — A mapping that reaches the end of the address space aborts the normalizer.
* `Normalizer.abort_version_violated` — So does a version of perf with a number of ten digits.
* `Normalizer.abort_buildId_violated` — So does an mmap event whose build ID has trailing NULs, if the table has the bytes before them.

### C36 Converter: samples and weights are conserved (partial)

Modules: `Verif/Converter/Props.lean`.

Counts are conserved for every history; weights when every period is below 2^63 (a larger one becomes negative, proved in weight_violated).

* `Converter.accepted_samples_placed` — Every accepted sample is added to one profile sample, in either grouping mode, and nothing else is; the profile sample exists. No profile sample is without one.
* `Converter.counts_and_weights_conserved_partial` — For every event, the sample counts of all profiles add up to the number of accepted samples of the event, and the weights to the sum of their weights.
* `Converter.weight_violated` — Fails for a period of 2^63 or more: it becomes a negative weight.

### C37 Converter: samples are merged exactly when indistinguishable (partial)

Modules: `Verif/Converter/Props2.lean`.

Both directions, for numbers that fit their types and samples of which, for the labels asked for, none leaves out a number that is zero in another; a missing thread id is confused with id 0 (proved).

* `Converter.merged_agree` — First half. Samples added to the same profile sample are of one process, which did not execute another program in between, and have the same addresses and the same labels. The labels claim is for samples whose numbers fit their types and of which no one leaves out a number that is zero in the other. In `L` the newest sample comes first: `c` is the later one.
* `Converter.agreeing_merged` — Second half. Two samples of a process that did not execute another program in between, whose stacks are the same locations and whose labels are the same, are added to the same profile sample.
* `Converter.merged_iff_partial` — In terms of the recording alone: with no new mapping over the stack of the earlier sample in between, two accepted samples are merged exactly when they are of the same process, it did not execute another program in between, and addresses and labels agree.
* `Converter.labels_violated` — Without the condition on optional fields the claim fails: a sample without a thread id and one with thread id 0 are merged, although only the second has a label `tid`.
* `Converter.in_order_violated` — Fails when all processes share a profile and process 0 executes a program: cached location ids of another process are used in the new profile, where they do not exist.

### C38 Converter: produced profiles are internally consistent (partial)

Modules: `Verif/Converter/Props.lean`, `Verif/Converter/Props2.lean`.

Holds when profiles are grouped by process or process 0 never executes a program; otherwise references dangle (proved).

* `Converter.profiles_in_order_partial` — Every profile is in order, and each of its samples has two values for each event.
* `Converter.sample_values_partial` — The values of a profile sample: for every event the number of accepted samples added to it, and the sum of their weights, where a weight is the sample's period if positive, else the event's period if positive, else 1 (`weightOf`).
* `Converter.in_order_violated` — Fails when all processes share a profile and process 0 executes a program: cached location ids of another process are used in the new profile, where they do not exist.

### C39 Converter: weight selection (partial)

Modules: `Verif/Converter/Props.lean`.

For periods below 2^63.

* `Converter.sample_values_partial` — The values of a profile sample: for every event the number of accepted samples added to it, and the sum of their weights, where a weight is the sample's period if positive, else the event's period if positive, else 1 (`weightOf`).
* `Converter.weight_violated` — Fails for a period of 2^63 or more: it becomes a negative weight.

### C40 Converter: process time stamps are the extrema (partial)

Modules: `Verif/Converter/Props3.lean`.

For time stamps below 2^63.

* `Converter.times_are_extrema_partial` — The times of a profile are the extrema of the non-zero time stamps of its samples, 0 if there are none; its samples are those of its process (of any process, with process id 0, when all share a profile).
* `Converter.times_violated` — Fails for a time stamp of 2^63 or more, which becomes negative.

### C41 Converter: build ID statistics account for every frame (partial)

Modules: `Verif/Converter/Props3.lean`, `Verif/Converter/Props4.lean`.

What is counted is characterised for every history; the documented sum holds grouped by process, without data address frames and without exec, and fails in each other case (proved).

* `Converter.stats_count_frames` — The statistics of a profile: for each source, the frames of the accepted samples of its process whose mapping has its build ID from there. (The data address frames of `kAddDataAddressFrames` are not counted.)
* `Converter.stats_sum_partial` — As documented, the sum over the statistics of a profile is the number of frames in the profile weighted by sample count, if profiles are grouped by process, data address frames are not asked for and the process does not execute another program.
* `Converter.stats_ungrouped_violated` — Fails with one profile for all processes: it gets the statistics of process 0 only.
* `Converter.stats_dataFrames_violated` — Fails with data address frames: they are not counted.
* `Converter.stats_exec_violated` — Fails when a process executes another program: both its profiles get all its frames.

### C42 Perf command line filter (partial)

Modules: `Verif/Command/Props.lean`.

The accepted lines are characterised exactly. That perf reads them the same way holds if no option that takes a value is written with =; otherwise the word after it is never checked (proved).

* `Command.accepted_iff` — The check accepts a line exactly if it is made of `perf`, a known command and listed options, the values of options that take one being arbitrary.
* `Command.banned_refused` — No option that names a file or another program is ever accepted, and for `perf inject` not the one that names the input either.
* `Command.only_sleep_partial` — In part: what perf does with an accepted line. If no option that takes a value is written with `=`, perf sees the listed options of the line, then the output file chosen by the recorder, and the only program it runs is `sleep`. Missing: lines where such an option is written with `=`, for which this is false (`hidden_option_violated`, `hidden_program_violated`).
* `Command.only_sleep_stat_partial` — The same for `perf stat`.
* `Command.hidden_option_violated` — Is false as a promise about perf: a line is accepted although perf reads a banned option in it, since the word after an option written with `=` is taken for its value.
* `Command.hidden_program_violated` — Likewise a line is accepted for which perf runs another program than `sleep`.

### C43 An event is decoded with its own attribute (partial)

Modules: `Verif/Attr/Props2.lean`.

For native byte order and attributes that agree on sample_id_all; violated otherwise (proved).

* `Attr.own_attribute` — An event with an id, recorded on a machine of this byte order, is decoded with the attribute that was registered for this id (the last one, should there be several), wherever the attribute puts the id; reading gives the sample fields in the event and the sample type of the attribute.
* `Attr.accepted_iff` — Attributes are accepted exactly if they agree on where the id is.
* `Attr.only_attribute` — If there is only one attribute, and it does not have events carry an id, it is used for all events.
* `Attr.choice_safe` — Once an attribute has been accepted, the choice for any event reads nothing outside of the event and does not abort.
* `Attr.choice_needs_attribute` — Before any attribute has been accepted the choice for a sample event aborts the program.
* `Attr.own_attribute_foreign_violated` — Fails for data of the other byte order: the id in the event is not converted, so the attribute registered for it is not found.
* `Attr.own_attribute_mixed_violated` — Fails where attributes disagree on `sample_id_all`: an EXIT event of the second attribute, which has the id, is decoded with the first.
* `Attr.carries_info` — If all attributes agree on `sample_id_all`, sample events carry sample data, and other events do exactly if they are of a kind that may and `sample_id_all` is set.

### C44 Event payloads round-trip between binary events and protobuf (partial)

Modules: `Verif/Attr/Props.lean`, `Verif/File/Props.lean`, `Verif/Serial/Props.lean`, `Verif/Serial/Props2.lean`.

For every supported event type, and every event that a message describes (Serial/Spec.lean: wire); the _violated theorems show events that are changed by the round trip because messages have no place for a part of them. Attributes: all but four flag bits.

* `Serial.serialize_partial` — An event of any supported type is read as the message that describes it, whatever the attributes of the file are, as long as the event belongs to one of them. Missing: events that no message describes, see the violations in `Props2`.
* `Serial.deserialize_partial` — A message is written as the event it describes, byte by byte.
* `Serial.event_round_trip_partial` — Writing the message that was read from an event gives back the event.
* `Serial.message_round_trip_partial` — Reading the event that was written from a message gives back the message.
* `Serial.wire_injective` — Different messages are different events.
* `Serial.aux_flags_violated` — Fails: an AUX event keeps only three of its flags; `PERF_AUX_FLAG_COLLISION` (8) is lost.
* `Serial.behind_name_violated` — Fails: what follows the end of a name is lost.
* `Serial.build_id_rest_violated` — Fails: the reserved bytes of a build ID, and those beyond its size, are lost.
* `Serial.bpf_keys_violated` — Fails: of two values of a program with the same key only one is kept, and the number of values changes.
* `Serial.auxtrace_reserved_violated` — Fails: the reserved words of AUXTRACE events are lost.
* `Serial.time_conv_violated` — Fails: a capability of a clock other than 0 and 1 is normalised, and reserved bytes are lost.
* `Serial.branch_bits_violated` — Fails: the bits of a branch entry from 26 on are lost; `new_type` and `priv` are there.
* `Serial.lost_count_violated` — Fails: the number of lost values of a single counter is replaced by 0.
* `Serial.hw_idx_violated` — Fails: the index into the branch records is lost if the stack is empty.
* `Serial.name_overflow_violated` — A message whose name does not fit in the size it declares is written beyond the memory that was allocated for it.
* `Attr.proto_round_trip_partial` — Messages: an attribute that uses only bit fields known to messages, and not the reserved word, survives the way into a message and back. The full claim would be for every attribute.
* `Attr.proto_round_trip_violated` — Bit fields are lost: `bpf_event` is bit 30.
* `File.file_round_trip` — A recording that is written and read again has the same events in the same order, the same samples are reported, and the same is known beside the events: only build IDs that the file does not hold are missing, and the build IDs in the mappings are added.

### C45 Event size computation is consistent (partial)

Modules: `Verif/Event/Props.lean`, `Verif/Serial/Props.lean`, `Verif/Serial/Props2.lean`.

For messages that are in order (Serial/Spec.lean: MsgOk) with attributes that agree on sample_id_all. A message that is not may be larger than its declared size (name_overflow_violated).

* `Serial.event_size_partial` — The size computed for a message is that of the event it describes.
* `Serial.data_size_partial` — The size of the part of an event in front of its sample fields is computed alike for the message and for the event.
* `Serial.msg_size_aligned` — What is computed for a message is a multiple of eight, whatever the message is.
* `Serial.msg_size_zero` — The size is zero only for an unsupported type or for an event that is too large for its header.
* `Serial.name_overflow_violated` — A message whose name does not fit in the size it declares is written beyond the memory that was allocated for it.
* `Event.eventDataSize_safe` — Raw events: whatever bytes an event holds, computing its data size reads nothing outside of it; the result is at most the size of the event and a multiple of 8.

### C46 File sections never point outside the file (partial)

Modules: `Verif/Data/Props.lean`, `Verif/File/Props2.lean`, `Verif/File/Safe2.lean`, `Verif/Meta/Props4.lean`, `Verif/Meta/Props5.lean`, `Verif/Meta/Safe.lean`.

Metadata of files and their section headers. Files that claim a hybrid topology are excluded: a list of CPUs 0-4294967295 is read without end (proved).

* `Meta.section_accepted` — A section header at the position of the reader is accepted if and only if it is inside of the file and so is the range of bytes that it describes.
* `Meta.header_accepted` — An event header at the position of the reader is accepted if and only if it is inside of the file, the size in it is not below that of the header, and the whole event is inside of the file.
* `Meta.sections_inside` — If the metadata of a file can be read, then there is a section header behind the data for every feature, and the range of bytes of each of them is inside of the file.
* `Meta.read_metadata_safe_partial` — Whatever a file holds, reading its metadata ends, reads nothing outside of the file and takes no more section headers than it has read, unless the file says that it has a hybrid topology. (That the reader gets back to a position in the file is part of `Safe`.)
* `Meta.endless_violated` — Violated: such a file is read without end.
* `Meta.overrun_violated` — A stronger reading, violated: what is read for a feature can be outside of its section, though never outside of the file. The name takes its last eight bytes from the next section.
* `Data.section_tiled` — Tiling. When reading the data section succeeds, the section lies inside the file, reading ends exactly at its end, and the section is a row of records without gaps: each as long as its header says (at least the 8 bytes of the header), with the data of a tracing unit behind it. The events are those of these records, in this order, and `Effect` says what each record adds.
* `Data.section_safe_partial` — Termination and safety. If the attributes of the recording were accepted by the reader, then reading the data section ends and neither aborts nor reads outside the memory of an event, unless it comes to a record of type 84 (metadata of BPF programs). For those the claim is false: `section_safe_violated`.
* `Data.section_safe_violated` — The safety claim of C27 and C46 fails for metadata of BPF programs: the record announces `2^58` entries, the check of the size wraps around, and entries are read behind the end of the event.
* `File.read_safe_partial` — Whatever the bytes are, reading a recording ends, without aborting, and without touching anything outside of the bytes or of an event, unless the bytes hold a list of CPUs that is never completed (C20) or a record of BPF metadata (see `section_safe_violated`). The order of bytes is the one that the first bytes of the recording tell.
* `File.read_endless_violated` — Fails: 57 bytes whose reading does not end.
* `File.read_outside_violated` — Fails: a recording whose reading leaves the memory of an event.
* `Meta.build_id_inside` — A build ID that is accepted has its name inside of its record, followed by a NUL and by padding up to a multiple of eight.
* `Meta.build_ids_inside` — Build IDs take the whole of their section and nothing else.
* `Meta.section_left` — Whatever a section holds, reading goes on behind it.

### C47 Deleted shared objects are recognised without throwing (partial)

Modules: `Verif/Normalizer/Main.lean`, `Verif/Normalizer/Props.lean`.

The answer is characterised; for a name that ends in .so an exception is thrown (proved). The normalizer never asks for such a name.

* `Normalizer.isDeleted_iff` — A path is a deleted shared object when, past its first byte, it has `.so` followed by `.`, `_` or a blank, and then `(deleted)`.
* `Normalizer.isVersioned_iff` — A path is a versioned shared object when it has `.so.` past its first byte.
* `Normalizer.isDeleted_total_partial` — The test for a deleted shared object is answered for every path that does not end in `.so`. The full property is that it is answered for every path: see `isDeleted_violated`.
* `Normalizer.isDeleted_violated` — For a path that ends in `.so`, an exception is thrown.

### C48 Writing then reading whole files (partial)

Modules: `Verif/File/Props.lean`, `Verif/Meta/Props3.lean`, `Verif/Meta/Props4.lean`.

For recordings that satisfy the conditions in File/Spec.lean (Complete): the bytes written are exactly those of the specified format, at the offsets of its header, and the announced size is that of the file plus the room for absent lists. Outside: a missing string is not counted, missing trace data abort (violated).

* `File.file_size` — The size announced for a file is the size of the file plus the bytes that are not used.
* `File.write_file` — Writing a recording to a vector or a string yields exactly the bytes of the recording, followed by the unused bytes.
* `File.write_pointer` — Memory that is too small for the announced size is refused before anything is written; otherwise the bytes of the recording are written to its front, and the rest of the memory is unchanged.
* `File.missing_trace_violated` — Fails: a recording whose event announces data of a tracing unit that are not in the message (they are optional) makes the program end instead of being refused.
* `Meta.metadata_size` — The space that is reserved for the metadata is the space it takes, plus the numbers of entries of the lists that are not there.
* `Meta.metadata_fits` — So the metadata always fits behind the data of a recording in the space reserved for it.
* `Meta.missing_string_violated` — Violated: a string that is marked as present but is missing takes 12 bytes that are not counted, so that the metadata do not fit into the space reserved for them.

### C49 Pid/tid packing (proved)

Modules: `Verif/Util/Props.lean`.

* `Util.C49_roundtrip` — Unpacking a packed pair of 32-bit values gives the pair back, and the packed value is 64 bits wide.
* `Util.C49_injective` — Packing is injective.
* `Util.C49_order` — Packing keeps the order of the first component, which is what makes threads of a process adjacent in the sorted set (`perf_parser.cc:407-408`).

### C50 Build ID injection and file-name lookup (partial)

Modules: `Verif/Names/Props.lean`.

For tables of well-formed build IDs and names without NUL; otherwise see the three violations.

* `Names.table_spec` — The table from names to build IDs reports for a name the build ID of its last entry, as 40 digits, and nothing else.
* `Names.newEntry_ok` — What a new entry looks like; there always is one.
* `Names.inject_ok_iff` — The injection fails exactly if the text given for a file that already has an entry cannot be read.
* `Names.inject_reported` — After a successful injection every injected name has the injected build ID, filled up to 40 digits.
* `Names.inject_others` — All other names keep what was reported.
* `Names.inject_entries` — The entries after an injection. The old ones stay in place and keep everything but, if their name is given, the build ID and the mark; for every given name without an entry there is one more, for all processes, with the mode of the newest mapping of the file, or of the kernel.
* `Names.inject_malformed_violated` — For texts that are no build IDs: for a file without an entry the injection says that all is well and stores zeros, for a file with an entry it fails.
* `Names.inject_failed_violated` — A failed injection has changed the entries before the one it failed at.
* `Names.inject_nul_violated` — A name with a NUL is cut off there, so nothing is reported for it.
* `Names.inject_frame` — Whatever the outcome, the set of features written gains the build IDs (bit 2) and nothing else, and events and attributes stay as they are.

### C51 AddressMapper: untouched ranges keep their translation (proved)

Modules: `Verif/AddressMapper/Props.lean`.

* `AddressMapper.C51_untouched_ranges_stay` — Stability: whatever a request does and answers, an address whose range does not meet the request keeps its translation (remapped address, id and offset).

### C52 AddressMapper: a copy translates like the original (proved)

Modules: `Verif/AddressMapper/Props.lean`.

* `AddressMapper.C52_copy` — Copying: a copy of a mapper answers every lookup like the original.

### C53 Root path of a file name (proved)

Modules: `Verif/Text/Props.lean`.

* `Text.C53_two_levels` — A file at least three levels deep gets its first two directories, whatever the rest.
* `Text.C53_one_level` — A file directly below a top-level directory gets that directory.
* `Text.C53_root` — A file in the root directory gets the leading slashes.
* `Text.C53_relative` — A name that is neither special nor absolute has no root.
* `Text.C53_prefix` — Whatever the name, the root is a prefix of it.

### C54 Parsing perf stat output is safe (partial)

Modules: `Verif/Text/StatProps.lean`.

What is undefined is characterised for every text: only the conversion of a time that is not a number, infinite or enormous. With such a time the claim is false (witnesses proved).

* `Text.C54_undefined_iff` — Parsing `perf stat` output never takes the last character of an empty token. The only undefined behaviour is that of converting the text in front of the word `seconds`.
* `Text.C54_safe_partial` — Partial: parsing is defined if every line of four words with `seconds` as the second one begins with a decimal number that is not enormous. Missing: all other texts, for which the claim is false (next theorem).
* `Text.C54_safe_violated` — But not for every text: `perf stat` output with a time that is not a number, or an enormous one, makes the parser do something undefined.
* `Text.C54_result` — The result is true exactly when at least one line was recognised, and the number of lines never exceeds the number of input lines.

### C55 Finalizing twice is finalizing once (proved)

Modules: `Verif/Builder/Props.lean`.

* `Builder.finalize_idempotent` — Finalizing twice is finalizing once.

### C56 Call stacks are added frame by frame (proved)

Modules: `Verif/Builder/Props.lean`.

* `Builder.addCallstack_eq` — A call stack of 64-bit return addresses is appended frame by frame, each address moved back by one so that it lies in the call; only the first frame of an interrupt stack is kept as it is. Address 0 moves to the last address.

### C57 Documentation URL (partial)

Modules: `Verif/Builder/Props.lean`.

All but the last sentence: SetDocURL("") appends a second empty string to the table (proved).

* `Builder.setDocURL_spec` — An accepted URL is stored as given; a rejected one leaves the profile as it was and makes Finalize fail, now and after any later calls.
* `Builder.stringTable_nodup` — Hence it has no duplicates.
* `Builder.stringTable_nodup_violated` — The empty URL is the only way to get a duplicate, and it does give one: `SetDocURL("")` appends a second empty string.

### C58 ARM SPE decoding reports only complete records (partial)

Modules: `Verif/Spe/Props.lean`.

A record is closed by an end or timestamp packet or by the end of the trace; the latter case breaks the property (proved).

* `Spe.nextRecord_complete_partial` — What holds of it: a record is reported only when the packet that ended it has an end (`0x01`) or timestamp (`0x71`) header, or when there is nothing left to read.
* `Spe.nextRecord_complete_violated` — Fails: a trace that stops after an address packet, with no end packet, and one that ends in padding, each yield a record reported as complete.

### C59 ARM SPE alignment packets (partial)

Modules: `Verif/Spe/Props.lean`.

The skip is right when the whole alignment fits; the bounds check is too strict and the skip depends on the address of the buffer (proved).

* `Spe.nextRecord_align_partial` — What holds of it: an alignment packet (header `0x20 + k`, then zero) with at least `2^(k+1)` bytes from it to the end of the trace makes the decoder go on at the next address that is a multiple of `2^(k+1)`, with nothing else changed.
* `Spe.nextRecord_align_violated` — Fails: an alignment packet whose padding ends exactly at the end of the trace is rejected, because the whole alignment, not the padding, is compared with the bytes left (the same trace decodes when four more bytes follow); and the same bytes decode differently at another address.
* `Spe.decodeAll_encoded_base` — No dependence on the address without alignment packets: see `decodeAll_encoded`, which holds for every `base`.

### C60 Counted lists accepted by the event size check lie inside the event (partial)

Modules: `Verif/Event/Props.lean`.

Holds unless count times entry size reaches 2^64; a BPF metadata event with 2^58 announced entries and none present is accepted (proved).

* `Event.declared_entries_fit_partial` — What holds of it: in an event with a list of entries, other than BPF metadata, whose size computation succeeds, all entries announced by the count lie in the event.
* `Event.declared_entries_fit_violated` — Fails for BPF metadata: the product of the number of entries and their size wraps around, so an event that announces `2^58` entries and holds none is accepted.

### C61 Data size of events that end in a string (proved)

Modules: `Verif/Event/Props.lean`.

* `Event.eventDataSize_string` — For events with a string followed by sample data, when the payload from the string's offset is a string without NUL, then enough zero bytes to reach the next multiple of 8, then anything, the data size is the offset plus the padded length of the string.

### C62 Writing sample data stays inside the event (partial)

Modules: `Verif/Sample/Props.lean`.

Holds for events with room for the predicted size; otherwise the writer runs past the event before it compares sizes (proved).

* `Sample.write_inside_partial` — Partial: the writer stays inside an event that has room for the predicted size.
* `Sample.write_inside_violated` — Is violated: the writer does not look at the size of the event before it writes. Here the event is only a header, and the instruction pointer is written behind it.

### C63 Huge page deduction does not depend on hash order (proved)

Modules: `Verif/HugePages/Deduce.lean`.

* `HugePages.deduce_order` — The result does not depend on the order in which the hash map delivers the processes.

### C64 Huge pages between two mappings of a file are recognised (proved)

Modules: `Verif/HugePages/Effect.lean`.

* `HugePages.deduce_fills` — Huge pages that fill the gap between two synthesized mappings `a` and `n` of one file, whose offsets fit, are recognised as a part of this file, wherever the three stand in the process and among the events: each of them gets the name and identity of the file, and the offset that continues that of `a`. The mappings around them stay.

### C65 Combining mappings keeps build IDs (partial)

Modules: `Verif/HugePages/Combine.lean`.

False: adjacent pieces of two files of one name are merged and the build ID of the second is lost (proved). What is kept is in combine_keeps_partial.

* `HugePages.combine_keeps_partial` — The part that holds: combining keeps every event that is not a mapping, in order, and does not increase the number of events; an address of a process is mapped afterwards exactly if it was mapped before; and for a mapped address the mapping that counts says the same as before about execution, and, unless it was anonymous memory, about the file offset; the file name stays unless it stands for a huge page.
* `HugePages.combine_buildId_violated` — Fails: two adjacent pieces of different files under one name are merged, and the second one is reported with the build ID of the first.

### C66 Combining mappings keeps the mappings seen at each moment (partial)

Modules: `Verif/HugePages/Combine.lean`.

Holds when all mappings come first; a mapping merged into an earlier one takes effect before a sample that stands between them (proved).

* `HugePages.combine_moment_partial` — The part that holds: if all mappings come before all other events (as those that perf synthesizes do), then every other event finds the combined mappings before it, exactly as if they had been combined alone. Missing: events between mappings, see `combine_moment_violated`.
* `HugePages.combine_moment_violated` — Fails in general: the sample in `exMoment` hits address `0x2500` in `/old`; after combining it is in `/new`, because the later mapping was merged into one before the sample.

### C67 Normalizer: a sample is attributed to the right event (proved)

Modules: `Verif/Normalizer/Props.lean`.

* `Normalizer.eventIndex_spec` — With one event every sample belongs to it. Else a sample belongs to the last event that lists its ID, and a sample whose ID no event lists is dropped.
* `Normalizer.process_reports` — Everything the handler is told follows from the history of events: each sample, lost sample, mapping and command name is reported as `Spec.lean` says.

### C68 Normalizer: lost samples are placed in their own mapping (partial)

Modules: `Verif/Normalizer/Props.lean`.

The name and the number are right; the address is in the mapping unless a process named [lost] was given a fake mapping first (proved).

* `Normalizer.process_reports` — Everything the handler is told follows from the history of events: each sample, lost sample, mapping and command name is reported as `Spec.lean` says.
* `Normalizer.lost_located_partial` — The address of a lost sample lies in its mapping if no process is named `[lost]`. The full property has no such condition: see `lost_located_violated`.
* `Normalizer.lost_located_violated` — A process named `[lost]` gets the mapping of lost samples placed at 0.

### C69 Normalizer: the main mapping of a process (proved)

Modules: `Verif/Normalizer/Main.lean`, `Verif/Normalizer/Props.lean`.

* `Normalizer.process_main` — The main mapping reported with a sample follows from the history as `mainOf` and `MainShown` say.
* `Normalizer.canBeMain_iff`

### C70 Normalizer: facts about the whole recording (proved)

Modules: `Verif/Normalizer/Props.lean`.

Version strings whose numbers reach 2^31 abort: see C35.

* `Normalizer.config_spec` — Trace data is decoded if the recording has a trace of the SPE kind; the records then get the process of their thread; `exec` is known to be reported if some event says so.
* `Normalizer.useLostSample_spec` — Lost samples are counted by the lost-samples events for perf 6.1 and later, by the lost events before.
* `Normalizer.process_reports` — Everything the handler is told follows from the history of events: each sample, lost sample, mapping and command name is reported as `Spec.lean` says.

### C71 Converter: stacks are shown (proved)

Modules: `Verif/Converter/Props2.lean`.

* `Converter.stack_shown` — A profile sample shows every sample added to it: its stack, frame by frame, at the addresses of the sample's stack.

### C72 Converter: labels are shown (partial)

Modules: `Verif/Converter/Props2.lean`.

For numbers that fit their types and samples of which, for the labels asked for, none leaves out a number that is zero in another.

* `Converter.labels_shown_partial` — A profile sample carries the labels of every sample added to it, in order, if the numbers of the accepted samples fit their types and none leaves out a number that is zero in another.
* `Converter.labels_violated` — Without the condition on optional fields the claim fails: a sample without a thread id and one with thread id 0 are merged, although only the second has a label `tid`.

### C73 Converter: one profile per process (proved)

Modules: `Verif/Converter/Props3.lean`.

* `Converter.one_profile` — Samples of a process that never executes another program all go to one profile, and when all processes share a profile there is only one.
* `Converter.profiles_by_process` — The converse: samples of different processes never share a profile when profiles are grouped by process.

### C74 Converter: the mapping of each frame (proved)

Modules: `Verif/Converter/Props4.lean`, `Verif/Converter/Props5.lean`.

The two violations show that the stronger reading, the mapping of this very sample, fails: new mappings of the kernel do not invalidate cached frames of processes.

* `Converter.mappings_shown` — In the profile of an accepted sample, frame by frame, the location has the address of the frame and the mapping given for that address in a sample of the process that is the same one or an earlier one with no exec and no new mapping at that address in between.
* `Converter.kernel_remap_violated` — A frame is shown with an older mapping when the new one is reported for another process, as that of the kernel is: here process 5 has a frame at 5000 in `/bin/a`, then the kernel (process `2^32 - 1`) maps `/lib/b` there, and the next sample of process 5 at 5000 is in `/lib/b` but shown in `/bin/a`.
* `Converter.stale_kernel_violated` — A frame of the kernel is shown with the mapping the kernel had before: after the second mmap event of the kernel the address 5000 lies in `[b]`, yet the second sample there is shown in `[a]`.

### C75 Converter: sample types and comments (proved)

Modules: `Verif/Converter/Props4.lean`.

* `Converter.types_and_comments` — Every profile has for every event, in order, a type `<prefix>sample` and a type `<prefix>event`, both counts; the default type is the second one of the last event; the comments are the version of perf and its command line, if known.

### C76 Converter: the first mapping of a profile (proved)

Modules: `Verif/Converter/Props4.lean`.

* `Converter.first_mapping_is_main` — The first mapping of a profile is the main mapping that came with its oldest sample; an empty one at address 0 if none came.

### C77 Converter: conversion does not abort (partial)

Modules: `Verif/Converter/Props2.lean`, `Verif/Converter/Props5.lean`.

Under the listed conditions on recording and options; each violation is a concrete abort.

* `Converter.converts_all_partial` — The conversion finishes if no mapping ends before it starts, the addresses of samples lie in the mappings given for them, the weights add up to less than 2^63, failing on a mismatch of main mappings is not asked for and, unless profiles are grouped by process, process 0 executes nothing. The full property has none of these conditions: see `abort_location_violated` and `abort_overflow_violated`.
* `Converter.proto_converts_partial` — The conversion of a recording to profiles finishes if every mapping ends below `2^64` and is not empty, the version of perf can be read, the build IDs of mmap events have no NUL, no process is called `[lost]`, the weights of the samples add up to less than `2^63`, and the two conditions on the options of `converts_all_partial` hold.
* `Converter.abort_location_violated` — A sample outside its mapping aborts the conversion.
* `Converter.abort_overflow_violated` — Two samples of period 2^62 overflow their sum.
* `Converter.abort_named_lost_violated` — A process called `[lost]` aborts the conversion at its first lost sample.
* `Converter.in_order_violated` — Fails when all processes share a profile and process 0 executes a program: cached location ids of another process are used in the new profile, where they do not exist.

### C78 Converter: validity of the profiles (proved)

Modules: `Verif/Converter/Props4.lean`.

valid_violated: events of the same name make a profile that fails the check and is handed out all the same.

* `Converter.valid_iff` — A profile is valid, and passes the check of the builder, exactly if no two of its sample types have the same name and the default type has a name, provided its string table is indexed by an `int`.
* `Converter.valid_violated` — Events of the same name make an invalid profile, which is handed out all the same.

### C79 From recording to profile: addresses lie in their mappings (proved)

Modules: `Verif/Converter/Props5.lean`.

* `Converter.addresses_in_mappings` — In the profiles of a recording, for every accepted sample and each of its frames, the location has the address of the frame and the address is 0 or lies within the mapping of the location.
* `Converter.abort_named_lost_violated` — A process called `[lost]` aborts the conversion at its first lost sample.

### C80 Converter: the check of main mappings (proved)

Modules: `Verif/Converter/Props6.lean`.

* `Converter.main_mapping_checked` — If conversion is to fail on differing main mappings and processes have profiles of their own, then after a conversion every sample with a named main mapping is in a profile whose first mapping has that name.

### C81 Parser: files and offsets of sample addresses (proved)

Modules: `Verif/Parser/Props.lean`, `Verif/Parser/Props3.lean`.

* `Parser.samples_reported` — For every sample the parser reports the file and the offset of its address, its data address, its call chain without context markers and its own address, and its branches before the first null one, each looked up among the mappings of its process at that time, and the name of its thread (`report`).
* `Parser.others_silent` — Nothing is reported for other events.
* `Parser.newest_mapping` — An address is never put into an older mapping than the newest one of the process that contains it, and its offset is its distance from the start of that mapping plus the file offset of the mapping.
* `Parser.kernel_shared` — The addresses of a process of which nothing is known are looked up among the mappings given to the process 0xffffffff, those of the kernel.
* `Parser.request_plain` — A mapping event asks for the range it names, at the offset it names; only the names of files with `jitted-` in them may cut pages, and only with that option.

### C82 Parser: no event is lost, added or moved (proved)

Modules: `Verif/Parser/Props2.lean`.

* `Parser.events_kept` — Without discarding, no event is added, lost or moved: the types of the events of the recording stay what they were, one by one, and the parsed events are the events but for the ends of rounds, which are left alone.

### C83 Parser: without remapping the recording is unchanged (proved)

Modules: `Verif/Parser/Keep.lean`, `Verif/Parser/Props2.lean`.

* `Parser.unchanged_without_remap` — Without remapping and discarding, parsing leaves every event as it was.
* `Parser.parse_keep` — Without remapping and without discarding, the events stay as they are.

### C84 Parser: discarding drops exactly the unused mapping events (proved)

Modules: `Verif/Parser/Props2.lean`.

With events of unknown types see C87.

* `Parser.discard_drops_unused` — Discarding drops exactly the mapping events that no looked-up address of a sample lies in, and the ends of rounds; the other events and what is reported about them are the same as without discarding.

### C85 Parser: counters (proved)

Modules: `Verif/Parser/Props2.lean`.

* `Parser.counters` — The counters are the numbers of events of each kind, of samples all of whose code addresses are in mappings, of samples with a data address, and of those whose data address is in a mapping.

### C86 Parser: when parsing aborts (partial)

Modules: `Verif/Parser/Props2.lean`.

The exact condition is proved; the plain reading, no abort, is violated.

* `Parser.fails_iff_refused` — Parsing fails exactly if some mapping event before the first event of unknown type is refused, because it has no size, goes over the end of memory, or cuts another mapping of its process inside a page.
* `Parser.refused_iff` — What refusal means: the answer of the specification of the address mapper, spelt out.
* `Parser.abort_violated` — A mapping event of size 0, or one that cuts another mapping inside a page, makes the whole conversion abort (unless it is a JIT mapping and those are allowed).

### C87 Parser: events of unknown types (partial)

Modules: `Verif/Parser/Props2.lean`.

Violated: nothing after such an event is processed; what happens instead is proved.

* `Parser.unknown_stops` — From the first event of a type the parser does not know on, nothing is looked at: the events stay as they were and nothing is reported about them. That some were not looked at is noted.
* `Parser.unknown_leaks_violated` — So with remapping, the addresses of samples after an event of a type such as `PERF_RECORD_TEXT_POKE` are not replaced, although parsing succeeds; and with discarding, a later mapping event makes the program read an uninitialised counter.

### C88 Parser: made-up addresses (proved)

Modules: `Verif/Parser/Props3.lean`.

* `Parser.sample_translated` — With remapping, one replacement of addresses is applied to all addresses of a sample: different addresses in mappings become different addresses, their places in a page stay; context markers, null entries of branch stacks and absent data addresses stay as they are.
* `Parser.mapping_moved` — With remapping, a mapping event keeps its size, file, offset, process and place in a page; only the first of the kernel is shown without its offset, and from there if it lies in the mapping.

### C89 Parser: a remapped recording means the same (partial)

Modules: `Verif/Parser/Props3.lean`.

For recordings whose mappings do not overlap within a process; violated otherwise.

* `Parser.remap_keeps_meaning_partial` — If no mappings of a process overlap and all fit into half of the address space, parsing the remapped recording again succeeds and reports for every sample the same thread name and the same file and offset of its address; also of its data address, unless that became 0, of its call chain, if the sample is in a mapping, and of its branches, unless one of them became null.
* `Parser.remap_overlap_violated` — If mappings overlap, a remapped recording may say something else: here a mapping event placed after the first two were partly replaced gets the made-up addresses of one that is still in use, and a sample in /b is found in /a.
* `Parser.remap_zero_violated` — The first mapping is moved to address 0, so a data address at its start becomes "no address", and a branch from its start to its start becomes a null entry.

### C90 Recorder: only checked commands are run (proved)

Modules: `Verif/Command/Props.lean`.

* `Command.runs` — Every command the recorder runs is the trusted program with accepted arguments, the recorder's own output file, and either `sleep` as the program to measure or, for the injection, the file recorded before.
* `Command.record_runs` — An accepted `perf record` that needs no injection is run once and its output file read if it succeeds.
* `Command.inject_runs` — With an accepted injection, both commands are run in order, the second only if the first succeeded, and the injected file is read if both succeeded.
* `Command.stat_runs` — An accepted `perf stat` is run once and its output parsed as counters if it succeeds.
* `Command.refused_runs_nothing` — Nothing is run for a line that is not accepted, or for a bare `perf inject`.

### C91 Recorder: ETM needs an injection (partial)

Modules: `Verif/Command/Props.lean`.

For events given with -e and no value equal to -e; --event is not looked at (proved).

* `Command.etm_needs_inject_partial` — In part: an accepted line that asks for ETM with `-e` runs nothing unless there is an injection, if no value of another option is the word `-e`. Missing: ETM asked for with `--event`, and values `-e`; for both this is false (`etm_violated`).
* `Command.etm_violated` — Is false when ETM is asked for with the long name of the option, or after a value `-e`.

### C92 Recorder: stored command line of counters (partial)

Modules: `Verif/Command/Props.lean`.

If no word given is -o, which is allowed as a value; else the temporary file name is stored and a word is lost (proved).

* `Command.stat_line_partial` — In part: the command line stored with the counters is the command run, its words separated by spaces, without the output file. Missing: a word `-o` among the words given, which the check allows as a value (`stat_line_violated`).
* `Command.stat_line_violated` — Is false for an accepted line with the value `-o`: the name of the temporary file is stored.

### C93 Renaming mapped files by build ID (partial)

Modules: `Verif/Names/Props.lean`.

What is renamed is characterised exactly; the reading joined on build IDs is violated.

* `Names.localized` — Renaming by build ID gives a mapping the name found for the last entry of its file whose build ID is in the table, and keeps the name if there is none.
* `Names.localized_ids` — The entries keep their build IDs, and a name stands for the same build ID as before under its new name.
* `Names.localize_other_violated` — As promised, by joining on build IDs, is false: an entry with a build ID that is not in the table is renamed if another entry of the same name is in it.

### C94 Alternative names of files with build IDs (proved)

Modules: `Verif/Names/Props.lean`.

The order of alternatives of one name is that of the list; the code leaves it unspecified.

* `Names.alternates` — Giving alternative names adds, behind the entries there are, one copy of an entry for each alternative of its name, and changes nothing else.
* `Names.alternates_others` — Names that are nobody's alternative keep their build IDs.
* `Names.alternates_reported` — The alternative name of a file gets the build ID of the file, if it is the alternative of no other.

### C95 The list of mapped files (proved)

Modules: `Verif/Names/Props.lean`.

* `Names.filenames_spec` — The list of file names has every name of a mapping event once, in increasing order of bytes, and no other.

### C96 Hash stored with a file name (partial)

Modules: `Verif/Names/Props.lean`.

Injection and sorting keep the hashes right. Violated for every renaming between names with different hashes.

* `Names.hash_partial` — Without renaming: an injection, whether it succeeds or not, and sorting keep the hashes right.
* `Names.hash_violated` — The hash stored with a name is not that of the name after renaming, neither in events nor in entries.

### C97 Event attributes are read and stored faithfully (partial)

Modules: `Verif/Attr/Props.lean`, `Verif/Attr/Props2.lean`.

Foreign attributes: all but the type, which is swapped twice. Messages: all but four flag bits; the frequency is stored as a period.

* `Attr.read_attr` — An attribute stored on a machine of the same byte order is read back, whatever the version of its structure, and the reader is behind it afterwards. (The size becomes that of the known structure.)
* `Attr.read_attr_short` — An attribute that claims to be shorter than its first two members is refused.
* `Attr.read_attr_safe` — Reading an attribute touches nothing outside of the file.
* `Attr.read_attr_foreign_partial` — The part that holds in the other byte order: all members are right except the type (and the reserved word). The full claim would be that the attribute read is `{ a with size := 96 }`.
* `Attr.read_attr_foreign_violated` — Fails in the other byte order: the type of a tracepoint event (2) is read as 33554432. The type has already been converted when all members are.
* `Attr.proto_round_trip_partial` — Messages: an attribute that uses only bit fields known to messages, and not the reserved word, survives the way into a message and back. The full claim would be for every attribute.
* `Attr.proto_attr_round_trip_partial` — The other direction: a message that gives a period, and only the wakeup parameter that `watermark` tells, survives the way into an attribute and back, but for bit fields outside of the message.
* `Attr.proto_round_trip_violated` — Bit fields are lost: `bpf_event` is bit 30.
* `Attr.proto_members` — The members of the message that a user looks at. Whether the period is meant or a frequency, it is found in the member `sample_period`; the wakeup parameter is found in the member `watermark` tells.
* `Attr.freq_stored_violated` — The frequency of an event that is sampled with a frequency is not in the member `sample_freq`.
* `Attr.freq_read_violated` — A frequency given in a message in its own member is dropped.
* `Attr.read_ids` — The ids of an attribute are read as stored, in either byte order.

### C98 Leaving out types of events removes just these events (partial)

Modules: `Verif/Data/Props.lean`.

For all types but data of tracing units (71), for which the claim is violated: the data behind the record are read as records.

* `Data.skipping_filters_partial` — Leaving out types of events (other than data of tracing units, type 71) removes the events of these types and changes nothing else: not the other events nor their order, not what is learnt from the events beside, and not the samples that the function of the caller is called with.
* `Data.callback_samples` — The function of the caller is called with the samples among the events, in their order.
* `Data.skipping_filters_violated` — Fails for data of tracing units: when they are not wanted, the data behind the record are not passed over but read as records, and events appear that are not in the recording.

### C99 Writing a recording and reading it back (partial)

Modules: `Verif/File/Props.lean`, `Verif/File/Props4.lean`, `Verif/File/Read2.lean`.

For recordings that satisfy the conditions in File/Spec.lean (Complete). Outside of them mappings that timed out and names of events are lost, and build IDs of mappings are listed twice after two trips (violated).

* `File.file_round_trip` — A recording that is written and read again has the same events in the same order, the same samples are reported, and the same is known beside the events: only build IDs that the file does not hold are missing, and the build IDs in the mappings are added.
* `File.file_round_trip_exact` — Nothing at all changes if the file holds the build IDs and no mapping has one.
* `File.read_image` — The bytes of a recording, whatever follows them, are read as the recording.
* `File.complete_again` — What was read can be written again, as long as it is not too big.
* `File.again_stable` — Without the feature of build IDs, reading and writing again changes nothing more.
* `File.again_grows_violated` — Fails with it: each time a recording is written and read, the build IDs in its mappings are added once more.
* `File.timed_out_violated` — Fails: a mapping whose source was cut off by a timeout is written, but passed over by the reader.
* `File.names_lost_violated` — Fails: without the feature of event descriptions, the names of the events are lost.
* `File.features_named` — The header of a file that is written names those features of the recording that are written, and no other, whatever the features of the recording are.

### C100 A recording from a pipe is the same as from a file (partial)

Modules: `Verif/File/Pipe2.lean`, `Verif/File/Props2.lean`.

For recordings whose records fit into 65535 bytes, in the order features, attributes, tracing data, build IDs, events (File/PipeSpec.lean). Bytes behind the ids of an attribute that are no multiple of 8 are read as the next record (violated).

* `File.pipe_as_file` — A recording is the same whether it comes from a file or from a pipe: the same events, the same attributes and the same metadata.
* `File.read_pipe` — The bytes from a pipe are read as the recording.
* `File.pipe_rest_violated` — Fails for attributes with bytes behind them that are not a multiple of 8: they are not passed over, although the size of the record counts them, and what follows is not understood.
* `File.pipe_empty_violated` — Fails for a pipe with nothing in it: the reader says that it has descriptions of events.

### C101 Reading any bytes ends (partial)

Modules: `Verif/File/Props2.lean`, `Verif/File/Props4.lean`, `Verif/File/Safe2.lean`.

Unless the bytes contain a list of CPUs that is parsed without end or a record of BPF metadata at some position; for these the claim is violated (proved). Memory exhaustion is not modelled.

* `File.read_safe_partial` — Whatever the bytes are, reading a recording ends, without aborting, and without touching anything outside of the bytes or of an event, unless the bytes hold a list of CPUs that is never completed (C20) or a record of BPF metadata (see `section_safe_violated`). The order of bytes is the one that the first bytes of the recording tell.
* `File.read_endless_violated` — Fails: 57 bytes whose reading does not end.
* `File.read_outside_violated` — Fails: a recording whose reading leaves the memory of an event.
* `File.short_feature_refused` — In a pipe, a record of a feature that is too small for its header and the number of the feature is refused: reading fails, whatever the bytes and the state are.

### C102 Recordings of machines with the other byte order (partial)

Modules: `Verif/Attr/Props.lean`, `Verif/Attr/Props2.lean`, `Verif/File/Props3.lean`.

For recordings with one attribute whose events carry no ids, and samples without branch entries and structured weights (File/ForeignSpec.lean). Violated (proved) for kernel symbols, control groups, the features of a file, types of attributes, and ids.

* `File.foreign_section_partial` — The records of a machine with the other byte order are read as the messages they were made from, in order and to the last byte; the build IDs in mappings and the samples reported are the same as for a file in native order. Missing: what `ForeignOk` leaves out, see the violations below.
* `File.foreign_ksymbol_violated` — Fails for kernel symbols: the kind of the symbol, 1 for a BPF program, is read as 256.
* `File.foreign_cgroup_violated` — Fails for control groups: a recording with one is refused.
* `File.foreign_features_violated` — Fails for the features: a file of the other byte order is read, with its attribute and its event, but the name of the host is not. The bits of the features are noted before they are converted.
* `Attr.own_attribute_foreign_violated` — Fails for data of the other byte order: the id in the event is not converted, so the attribute registered for it is not found.
* `Attr.read_attr_foreign_violated` — Fails in the other byte order: the type of a tracepoint event (2) is read as 33554432. The type has already been converted when all members are.

### C103 Recordings of the old form (proved)

Modules: `Verif/File/Old.lean`, `Verif/File/Props4.lean`.

For data in memory of this machine (File/OldSpec.lean).

* `File.old_as_new` — A file in which the names of the events have a section of their own is the same as a file with a description of the events.
* `File.old_pipe_as_new` — So is a pipe in which each name has a record of its own.
* `File.read_old` — A file of the old form is read as the recording with its names.
* `File.read_old_pipe` — A pipe of the old form is read as the recording with its names.

### C104 Names belong to their attributes (partial)

Modules: `Verif/File/Props4.lean`.

Proved for all files. Violated (proved) for pipes with a description of the events and records with names.

* `File.file_names_match` — After any file was read (its second word, the size of the header, is not that of a pipe), the names of the events are those of the attributes: the name at each place carries the configuration of the attribute at this place; or there are no names. If there are names, the feature that describes the events is there.
* `File.pipe_names_violated` — Fails for pipes: there are three names for two attributes, and the third has the configuration of the first attribute.

### C105 Every sample of a recording is counted (partial)

Modules: `Verif/Converter/Props.lean`, `Verif/Whole/Props.lean`.

Counts: all recordings that are converted. Weights: if all periods are below 2^63 (see weight_violated for why).

* `Whole.samples_counted_partial` — The profiles made from the bytes of a recording count every sample.
* `Converter.weight_violated` — Fails for a period of 2^63 or more: it becomes a negative weight.

### C106 Profiles do not depend on the form of the recording (proved)

Modules: `Verif/Whole/Props2.lean`.

For recordings that the forms can hold (File/Spec.lean, PipeSpec.lean, OldSpec.lean).

* `Whole.pipe_profiles` — A recording leads to the same profiles whether its bytes come from a file or from a pipe.
* `Whole.old_profiles` — So it does if the names of the events have a section of their own, as in old files, …
* `Whole.old_pipe_profiles` — … or records of their own in a pipe.
* `Whole.written_profiles` — Writing a recording and reading it again does not change its profiles, if the file holds the build IDs and no mapping has one.

### C107 Profiles do not depend on the order of records of different times (partial)

Modules: `Verif/Whole/Props2.lean`.

If mappings have no build IDs and none are given, or the mappings keep their order. Otherwise violated (proved): a mapping without a build ID gets the one that stands first in the file.

* `Whole.order_irrelevant_partial` — If all events record the time, the order in which records of different times stand in a file does not matter: two recordings that for each time have the same records in the same order lead to the same profiles. This holds if the mappings have no build IDs and none are given, or the mappings stand in the same order in both. The full property has no such condition: see `order_matters_violated`.
* `Whole.order_matters_violated` — Fails: two files with the same records, all of different times, in two orders. The mapping without a build ID gets the build ID that stands first in the file.

### C108 Frames of the profiles lie in mappings of the profile (partial)

Modules: `Verif/Whole/Props3.lean`.

If no process is called [lost], and there is one profile per process or process 0 is not named (Whole/Props3.lean: Calm). Outside: with one profile for all, naming process 0 makes samples refer to locations of another profile (proved).

* `Whole.frames_located_partial` — In the profiles made from the bytes of a recording the ids are in order, and each frame of a sample has a location whose address is 0 or lies within the mapping shown for it. Whatever the bytes are, if no process is called `[lost]` and, with one profile for all, process 0 gets no name. The full property has no such conditions: see `frames_located_violated` and `lost_name_aborts_violated`.
* `Whole.frames_located_violated` — Fails with one profile for all processes if process 0 gets a name: a second profile is started, with a sample whose location is in the first only, and a location whose mapping is.
* `Whole.lost_name_aborts_violated` — The bytes of a recording with a process called `[lost]` are read, but converting them aborts at the first lost sample.

### C109 A sample is shown with its stack and its mappings (partial)

Modules: `Verif/Whole/Props4.lean`.

For recordings whose mappings have names unless they are not at 0x400000, none that of a huge page, none continuing another (Whole/Settle.lean: Steady), with no trace data of ARM SPE and Calm (C108). Whole/StackSpec.lean tells the stack, the mappings and the order of records from the records alone. As in C33 an exec does not drop mappings, and a frame may show the mapping of an earlier sample with the same address. The frames of lost samples are not told apart at their reserved address. Outside: mappings that continue another are shown as one (proved).

* `Whole.sample_shown_partial` — What the profiles made from the bytes of a recording show of a sample: one of the profiles — that of the process of the sample, if there is one for each process — has a profile sample that counts for the event of the sample, and its frames are those of the stack of the sample, one by one: at the same address, and in the mapping that a sample of the process with this address in its stack had there, the same one or one before it, between which the process has neither mapped anything there nor executed another program.
* `Whole.sample_shown_merged_violated` — Fails for mappings that go on where another one ends: one mapping is shown for both, which the recording does not have.

### C110 Recordings in order are always converted (partial)

Modules: `Verif/Whole/Props3.lean`, `Verif/Whole/Props5.lean`.

For all bytes whose recording is Convertible (Whole/Props5.lean, Tidy.lean, Props3.lean: Calm), without the option to fail when the main mapping changes. For mappings of length 0, mappings that cut another within a page, mappings up to the end of memory, that option, and a process called [lost] an abort is proved.

* `Whole.converts_partial` — The conversion of the bytes of a recording finishes, for all build IDs, labels and thread types that are given, if the recording has nothing that the converter aborts on and the option to fail when the main mapping of a process changes is not set. The full property has no such conditions: see the violations below.
* `Whole.converts_empty_violated` — Fails for a mapping of length 0: the recording is read, but there is no outcome.
* `Whole.converts_cut_violated` — Fails for a mapping that covers another up to an address within a page.
* `Whole.converts_end_violated` — Fails for a mapping that ends at the end of memory.
* `Whole.converts_option_violated` — Fails with the option to fail when the main mapping of a process changes: a sample before the first mapping is enough.
* `Whole.converts_jit` — A mapping that covers another up to an address within a page makes no failure exactly if the option for such mappings (4) is given and it is one of code made at run time, by its name.
* `Whole.lost_name_aborts_violated` — The bytes of a recording with a process called `[lost]` are read, but converting them aborts at the first lost sample.

### C111 Mappings in profiles have the right build IDs (partial)

Modules: `Verif/Whole/Identify.lean`, `Verif/Whole/Picture.lean`.

Under the conditions of C109 (those of C137 for mappings in pieces or huge pages and SPE traces) and for given build IDs that are digits for whole bytes. Outside: a given build ID of a file that is not in the recording is shown for a mapping of the kernel without one (proved); a given text that is no build ID is shown up to the first character that is not a digit (proved).

* `Whole.build_ids_shown_partial` — The mappings that the frames of a sample are shown in have the build IDs told in `Identified`. Whatever the bytes are, under the conditions of `sample_shown_partial`, if the caller gives build IDs as texts of digits for names without NUL. For the build IDs that mappings of the kernel get from an entry with another name the caller gives none (see `build_ids_kernel_violated`).
* `Whole.build_ids_malformed_violated` — Fails for a given text that is no build ID: the digits before the first other character are shown, as if they were one.
* `Whole.build_ids_kernel_violated` — Fails if the caller gives build IDs of files that are not in the recording: a mapping of the kernel that has no entry is shown with the build ID of such a file.
* `Whole.recording_pictured_partial` — Whatever the bytes and the mappings are, the profiles show what is sampled in the records with huge pages named after files (`Renames`; at least those that fill the gaps in files, `Closed`, and none of those mapped later, `Still`), and with the mappings in one that go on where others end (`grown`); see C129 for these.

### C112 The labels of a sample are those of its record (partial)

Modules: `Verif/Whole/Labels.lean`.

For recordings whose samples are alike (Whole/LabelSpec.lean: Alike; for the labels asked for, none leaves out a process, thread, time or CPU that is zero in another, and the numbers fit), Calm (C108), and without trace data of ARM SPE. Whole/LabelSpec.lean tells the labels from the records alone. Outside: weights of 2^32 and more are cut and times of 2^63 and more are shown as negative (proved).

* `Whole.labels_shown_partial` — The labels of a sample in the profiles made from the bytes of a recording: one of the profiles — that of the process of the sample, if there is one for each process — has a profile sample that counts for the event of the sample and whose labels are, in order, those asked for that the record of the sample has: its process, thread, time, CPU, mode and so on, the names that comm records before it gave to the process and to the thread, and the path that a record before it gave to the cgroup.
* `Whole.labels_latency_violated` — Fails for a latency that does not fit 32 bits: it is cut, and the samples are put together with others.
* `Whole.labels_time_violated` — Fails for a time that does not fit the type of the label: it is shown as negative.

### C113 Which profiles are made (partial)

Modules: `Verif/Whole/Number.lean`.

For recordings that are Calm (C108), with or without trace data of ARM SPE, whose records count as samples. Outside: if process 0 is named between samples there are two profiles though one was asked for (proved).

* `Whole.unreadable_none` — Which profiles are made from any bytes. From bytes that cannot be read, none.
* `Whole.profiles_made_partial` — Which profiles are made from the bytes of a recording. No profile is empty. With a profile for each process there is one for exactly those processes of which the recording has samples (lost ones with them, unless they are to be left out); else there is one profile if the recording has any sample, and none if it has none. Records of ARM SPE traces count as samples. If nothing is mistaken (`Calm`).
* `Whole.process_profile_partial` — With a profile for each process, a process that executes no program after its first sample has just one.
* `Whole.profiles_made_violated` — Fails if process 0 is named: there are two profiles though one was asked for.

### C114 Messages and recordings are told apart (partial)

Modules: `Verif/Tool/Start.lean`, `Verif/Tool/WireProps.lean`.

Which bytes ParseFromArray accepts is modelled after the encoding of proto2 (Tool/Wire.lean). Proved for all recordings of machines that store the lowest byte first, and for those of other machines whose byte 71 is zero, as it is in files without a table of event types. Outside: a recording of another machine that can be read but is taken for a message (proved).

* `Tool.encoded_is_message` — The encoding of a message is taken for a message, whichever of its fields it has and in whichever order, nested up to a hundred deep.
* `Tool.recording_not_message` — A recording of a machine that stores the lowest byte first is never taken for a message.
* `Tool.foreign_not_message_partial` — A recording of any other machine is not taken for a message if its byte 71 is zero; in a file that is the lowest byte of the size of the table of event types, which is zero in all files without this table.
* `Tool.foreign_message_violated` — Fails for recordings of other machines: one that can be read, with its attribute and its event, is taken for a message.

### C115 Arguments of perf_to_profile (proved)

Modules: `Verif/Tool/Args.lean`.

getopt as in the GNU C library, without POSIXLY_CORRECT.

* `Tool.arguments_meaning` — The arguments that are accepted, and what they mean. They are flags and options with values, in any order and grouped as usual, with other words between them and anything after `--`; the last value of an option counts, and both options have one that is not empty.

### C116 Files written by perf_to_profile (partial)

Modules: `Verif/Tool/Props.lean`.

What is made of an accepted message and how a profile is encoded are left open (Tool/Model.lean: Library). That a recording with a sample gives a profile is proved for those of C110. Outside: if the disk is full, success is reported and the output is cut (proved).

* `Tool.tool_succeeds` — The program reports success if and only if the arguments are accepted, the input can be read, it gives exactly one profile, and the output can be written and is not there or is to be overwritten. All other files are as before, and the output has what was stored of the bytes of the profile.
* `Tool.tool_output` — The files after a success.
* `Tool.tool_failure_keeps` — If the program does not report success, all files are as before.
* `Tool.tool_only_output` — No file other than the output is changed.
* `Tool.tool_keeps_existing` — Without `-f`, a file that exists is not changed, even if its name is given as the output.
* `Tool.recording_converted` — A recording of a machine that stores the lowest byte first is converted as a recording, with any labels and options.
* `Tool.tool_converts_partial` — The output for a recording that has a sample: the profile of the recording. The recording is one that the converter does not abort on (C110), from a machine that stores the lowest byte first; there is room for the output.
* `Tool.tool_no_samples` — A recording without samples ends in failure, and no file is written.
* `Tool.tool_unreadable` — Bytes that are neither a message nor a recording end in failure, and no file is written.
* `Tool.tool_full_violated` — Fails if the disk is full: the program reports success, and the output is not the profile.

### C117 Messages keep recordings (partial)

Modules: `Verif/Tool/MessageEx.lean`, `Verif/Tool/Messages.lean`.

Violated: the counters of names, kernel symbols and data addresses are lost; an options message that does not name sort_events_by_time turns sorting off, while it is on otherwise; a sample without an address gets the address 0. What events become with remapping or discarding is in C29-C31 only.

* `Tool.message_made` — A recording that can be read and whose mappings are in order gets a message, whatever is asked for but the discarding of mappings.
* `Tool.message_refused` — Bytes that cannot be read get none, and no message is made of them.
* `Tool.message_keeps` — The message of a recording knows beside the events what the recording says, and its events are those of the recording in the order of their times (if that is asked for): exactly these where no mapping is changed, and in any case all events but the mappings; only a sample without an address gets the address 0.
* `Tool.message_round_trip` — A recording in a file that is turned into a message and back into a file. Nothing is lost: if no mapping is changed and all samples have addresses, the second file holds the events in the order of their times, and beside them what the reader knew of the first.
* `Tool.counters_kept_partial` — The counters of a message are those of the parser, as far as a message has them: they come back with `DeserializeParserStats`.
* `Tool.options_meaning` — The options that a message gives are those it names.
* `Tool.counters_lost_violated` — Fails for the other counters: names, symbols of the kernel and data addresses that were counted are not in the message, and what was counted before it stays.
* `Tool.options_default_violated` — Fails for options that are not named: they should be the usual ones, but a message of options that names none asks for the events not to be put in order, and the message that is made is another.
* `Tool.address_invented_violated` — Fails for a sample without an address: in the message it has one, 0.

### C118 Counters of a message (partial)

Modules: `?`, `Verif/Tool/Counted.lean`.

message_counts: recordings in which huge pages and split mappings do not occur, or with both options off. message_counts_any_partial: any recording whose mappings are in order; which huge pages are renamed is told by the bounds of C129 only. Violated: mappings are counted after pieces were put together, so three of a recording count as one. Violated: a mapping that covers only the end or the beginning of an older one removes all of that one, so addresses in what should remain are not counted as mapped (see C04).

* `Tool.message_counts` — The counters in the message of a recording are the numbers of samples, mappings, forks and exits among its records, and the number of samples all of whose addresses of code belong to mappings of their processes at that time.
* `Tool.mapped_le` — No more samples are mapped than there are.
* `Tool.message_counts_any_partial`
* `Tool.mapped_le_any`
* `Tool.mapped_cut_violated` — Fails for addresses of a mapping whose end another one covers: its other addresses count as not mapped. Three of five samples are mapped, but four are in the newest mapping of their process at their address.
* `Tool.mappings_joined_violated`

### C119 Arguments and formats of perf_converter (proved)

Modules: `Verif/Tool/ConvArgs.lean`.

getopt as in the GNU C library, without POSIXLY_CORRECT.

* `Tool.converter_arguments` — The arguments that `perf_converter` accepts, and what they mean. They are options with values, in any order, with other words between them and anything after `--`.
* `Tool.input_formats` — The input formats are the three names, alone or with one of the suffixes, which then says what is asked for.

### C120 Files written by perf_converter (partial)

Modules: `Verif/Tool/Convert.lean`.

How messages are written as text or bytes is left open; for the way by a message it is assumed that the message is read as it was written. That way is proved for the recordings of C117. Violated: if the disk is full the last block is lost and success is reported, or the program is aborted and leaves a part.

* `Tool.converter_success` — It reports success exactly if the arguments and formats are right, the input can be read in its format, what it holds can be written in the format of the output, and the output can be written and is long enough for all whole blocks. Then the output holds what is to be written, as far as it fits.
* `Tool.converter_failure_keeps` — If it reports a failure, it has changed none.
* `Tool.converter_only_output` — `perf_converter` changes no file but the output.
* `Tool.converter_message` — A recording that can be read and whose mappings are in order is turned into text or a message: it is the one that `SerializeFromFile` makes at the time 0.
* `Tool.converter_via` — A recording, a message made of it, and anything made of that message: it is what is made of the recording at once. The first run writes the message to `b`; whatever the second makes of `b`, text, a message or a recording again, the third makes of the recording.
* `Tool.converter_full_violated` — Fails if the disk is full: the program reports success although a part of the output is missing, or ends at once and leaves a part.

### C121 Files and buffers read alike (partial)

Modules: `Verif/Disk/Props.lean`.

Violated for inputs without positions (a pipe): FileToBuffer ends the program instead of returning false.

* `Disk.file_as_buffer` — Every sequence of calls on a file gives what the same calls give on a buffer with its bytes, whatever the strings held before.
* `Disk.whole_file` — `FileToBuffer` gives the contents of the file.
* `Disk.pipe_violated` — Fails for an input without positions, like the standard input at the end of a pipe: the program ends.

### C122 Build IDs in files (partial)

Modules: `Verif/Disk/Props.lean`.

libelf is what gives sections and notes of a file. Violated: a build ID of a module whose size is no multiple of four gets zeros at its end, that of an ELF file does not.

* `Disk.module_build_id` — The build ID of a module is the description of the first note of its file that is named GNU and has type 3, filled up to a multiple of four bytes; there is none if there is no such note.
* `Disk.module_build_id_partial` — So it is the description itself, if that has a multiple of four bytes, as all usual build IDs have.
* `Disk.module_safe` — Whatever the file of notes holds, reading a build ID from it comes to an end, and reads nothing outside. More rounds than the model allows for change nothing.
* `Disk.elf_build_id` — The build ID of an ELF file is the description of the first note in the section that is to hold it, `.note.gnu.build-id` before `.notes` before `.note`, wherever they are, that is named GNU and has type 3.
* `Disk.module_padding_violated` — Fails for other sizes: the build ID of a module gets zeros at its end, while that of the same note in a program does not.

### C123 Reading a build ID leaves other files alone (partial)

Modules: `Verif/Disk/Props.lean`.

Violated if libelf refuses the file: its descriptor is closed twice, so one that another thread opened in between is closed.

* `Disk.descriptors_partial` — Reading the build ID of a file that can be opened and is read by libelf leaves the descriptors as they are but for those opened by other threads meanwhile.
* `Disk.descriptors_stay` — And what was open before is still open.
* `Disk.descriptors_violated` — Fails if libelf cannot read the file: the descriptor is closed twice, and if another thread has opened a file in between, that one is closed.

### C124 A command is run and its output read (partial)

Modules: `Verif/Run/Props.lean`.

The kernel is modelled as far as descriptors go. Violated: a descriptor stays open if a command whose output is wanted cannot be run; a program without standard output and error gets what the command writes to its standard error; a killed command gives another status than -1; without a process left the program ends.

* `Run.command_ran` — A command that can be run: the output is what was there before and what the command prints, whichever way it comes; nothing that it writes elsewhere gets into it. The status is that of the command, and the same descriptors are open as before.
* `Run.command_missing_partial` — A command that cannot be run: -1 is returned with the error, and the output is left as it is. If no output was asked for, the same descriptors are open as before.
* `Run.status_partial` — The status is the one promised if the command exits.
* `Run.descriptor_left_violated` — Fails if a command that cannot be run is to have its output read: a descriptor stays open each time. It stays open as well, with another one, if there is room for only one pipe.
* `Run.daemon_violated` — Fails if the program has no standard output and no standard error, as a daemon has none: what the command prints is lost and what it writes to its standard error is taken for it. And a command that cannot be run seems to have been run.
* `Run.status_violated` — Fails for commands that are killed: 0 stands for two of the signals, a number below -1 for most of the others.
* `Run.fork_violated` — Fails if there can be no more processes: the program ends.

### C125 Interrupts go to the command (partial)

Modules: `Verif/Run/Signal.lean`.

Proved for all interleavings in which the child gets its group before interrupts are let through. Violated otherwise, and for every command after the first one, because interrupts stay ignored.

* `Run.program_survives` — No interrupt ends the program while a command is run, nor after it, in whatever order everything happens, and whatever the program did with interrupts before.
* `Run.ignored_after` — After the first command, interrupts do nothing to the program.
* `Run.interrupt_reaches_partial` — An interrupt that comes at any time between the beginning of a call and the end of the command reaches the command, in whatever order everything happens, if the child has its group before the program lets interrupts through, and the command is not over by then; and if interrupts are not ignored when the call begins.
* `Run.interrupt_lost_violated` — Fails if the child is slow: an interrupt that comes when the program lets interrupts through but the child has no group yet is lost, and the command runs to its end.
* `Run.second_violated` — Fails for the second command, like `perf inject` after `perf record`: it is started ignoring interrupts, so that interrupts sent while it runs do nothing.
* `Run.second_never` — However the second command goes, interrupts do nothing to it.

### C126 The quipper program (partial)

Modules: `Verif/Run/Quipper.lean`.

What perf leaves behind and what is made of it are inputs. Violated: text is accepted for the number of seconds; flags are misread if the line has perf in it.

* `Run.quipper_asked` — Quipper does what the words ask for, and if they ask for nothing it fails, runs nothing and changes no file.
* `Run.quipper_commands` — Whatever the words are, every command that is run is the trusted program with a safe line, with a file of quipper's own to write to; it measures nothing but `sleep`, and what is injected is what was recorded.
* `Run.quipper_success` — Success is reported exactly if the words ask for something, the commands succeed, something is made of what they leave, and the output can be written; then the output holds that.
* `Run.quipper_keeps` — If a failure is reported, no file is changed; and in no case another one than the output.
* `Run.seconds_read` — A number of seconds in digits, with spaces before it, is what it says, up to what an `int` can hold.
* `Run.seconds_kept` — The seconds of the flag that an `int` can hold are the ones asked for, and up to six digits they are written out.
* `Run.seconds_violated` — Fails for the number of seconds: in the old way anything goes for it, and is 0 or what its beginning says; with flags it is cut to 32 bits. So nothing is measured, or not for the time given, where the line should be refused.
* `Run.flags_violated` — Fails for the flags if the line has `perf` in it: the flags are taken for a number of seconds, which is 0.
* `Run.path_refused` — With a path of perf other than `perf` nothing is ever run.

### C127 Temporary files leave nothing behind (proved)

Modules: `Verif/Run/Temp.lean`.

nftw of the C library is modelled as documented; nobody else changes the directory while it is removed.

* `Run.temp_removed` — When a temporary file or directory goes away, an entry of the file system stays exactly if it is not in it, or something in it may not be removed. What stays is what it was.
* `Run.temp_gone` — So if everything may be removed, all of it is gone and everything else is there, also what links in it lead to.
* `Run.temp_traceless` — A temporary file or directory is created where nothing was, so that a program that changes nothing else leaves the file system as it was, whatever it has put in it.
* `Run.temp_none` — A path that could not be created is left alone.

### C128 Mappings recorded in pieces are shown as one (partial)

Modules: `Verif/Whole/Pieces.lean`, `Verif/Whole/PiecesEx.lean`.

Huge pages and mappings at 0x400000 without a name are excluded; SPE traces and labels are in C137. Joining is wrong for processes forked between two pieces (pieces_fork_violated), and for samples between them the later extent is shown (pieces_later_violated).

* `Whole.pieces_shown_partial` — What the profiles made from the bytes of a recording show of a sample, if mappings are recorded in pieces: that which C109 says, of the records with the pieces of each mapping in one (`joined`).
* `Whole.pieces_area` — If the pieces of each mapping follow each other with nothing but mappings between them, and they do not reach the end of memory or of the file, then records that are no mappings stand among the joined ones as they do among those of the recording: what comes before is what came before, joined.
* `Whole.pieces_fork_violated` — Fails if a new process starts between two pieces of a mapping of its parent: an address that it has not mapped is shown in the mapping, the second piece of which came later.
* `Whole.pieces_later_violated` — Nor is it the mapping at the time of a sample that is shown, if the next piece comes later.

### C129 Code in huge pages is shown in the file it is from (partial)

Modules: `Verif/Whole/Gaps.lean`, `Verif/Whole/GapsEx.lean`.

Processes with both a mapping without a name and one at 0x400000 are excluded: there the former is shown under the name of a file mapped behind it (unnamed_load_violated). SPE traces and labels are in C137. Which huge pages are renamed is told by two bounds (Closed, Still), not exactly. Huge pages of files that are mapped while perf runs are shown as anonymous memory (huge_later_violated), and memory before a mapping of a file may be taken for its start (huge_start_violated).

* `Whole.huge_shown_partial` — What the profiles made from the bytes of a recording show of a sample, whatever mappings the recording has: that which C109 says, of the records with huge pages named after files (`Renames`; at least those that fill the gaps in files, `Closed`, and none of those mapped later, `Still`) and with the mappings in one that go on where others end (`grown`).
* `Whole.huge_later_violated` — What a huge page of a file is shown as depends on when it was mapped. If the same mappings are made while perf runs, the profile does not show the file.
* `Whole.huge_start_violated` — A huge page may be shown as the start of a file although no other mapping says that it is: that before a mapping of a file whose offset is the size of the huge page.
* `Whole.unnamed_load_violated` — Where programs used to be loaded a mapping without a name is shown under that of a file which is mapped behind it.

### C130 The values of profiles are named after the events, and profiles are valid (partial)

Modules: `Verif/Whole/Titles.lean`.

For recordings that are Calm (C108) and profiles with fewer than 2^31 texts. profile_valid_violated: if events have the same name, an invalid profile is handed out.

* `Whole.values_titled_partial` — The values of every profile made from the bytes of a recording are named after the events of the recording: for each, in order, one counts its samples and one how often it happened; the one shown first is the latter of the last event. The comments tell the version of perf and its command line, if the recording has them.
* `Whole.profile_valid_partial` — Such a profile is valid, and passes the check that the library has for profiles, exactly if the names of the events, if there is one for each, are different and have no zero bytes, provided its texts are numbered by an `int`.
* `Whole.profile_valid_violated` — If two events have the same name, an invalid profile is made all the same.

### C131 Each sample of a recording has its place in the profiles, and nothing else is in them (partial)

Modules: `Verif/Whole/Exact.lean`, `Verif/Whole/ExactEx.lean`.

Excluded: processes with both a mapping without a name and one at 0x400000 (C129), samples that differ in their optional fields or whose numbers do not fit (C112), samples at the address kept for lost ones, a process named [lost] (Calm), SPE traces. The two theorems on samples apart show that the conditions for sharing a place are needed.

* `Whole.profiles_tell_partial` — What the profiles made from the bytes of a recording tell of it, all at once (`Tells`): every record has its places in the profiles, one for each sample it holds; the place of a sample is in the profile of its process and shows its stack and its labels; every sample of every profile is the place of a record; its values are, for each event, the number of samples with this place and the sum of their weights; and samples share a place if they have the same stack and labels, unless their process executes a program or maps something over the stack between them.
* `Whole.profiles_tell_steady_partial` — For recordings whose mappings are neither huge pages nor go on where others end: the records are those of the recording, in the order of time.
* `Whole.tell_remapped_apart` — Samples with the same addresses and labels do not share a place if another file is mapped there between them.
* `Whole.tell_executed_apart` — Nor if the process executes a program between them: they are in two profiles.

### C132 Seconds become milliseconds (partial)

Modules: `Verif/Text/SecondsProps.lean`.

For decimal texts everything is proved, with the exact limit up to which the result is defined and a bound on the error; whole milliseconds are exact below 2^50 of them and not always above (proved). That all other texts are refused is false (witnesses proved), and for some of them the behaviour is undefined (proved).

* `Text.seconds_fit` — Whether the milliseconds of a decimal text can be computed at all. They can exactly below 18446744073709550 seconds; from there on the conversion to 64 bits is undefined behaviour.
* `Text.seconds_nearest` — The result is the nearest number of milliseconds, up to a relative error of `2^-51` in what counts as half way.
* `Text.seconds_exact` — A text that says a whole number of milliseconds, in whatever way, yields that number, for more than thirty thousand years.
* `Text.seconds_nanoseconds` — `perf stat` prints nine digits behind the point. For less than 20 days these nanoseconds become the nearest milliseconds, unless they are half way between two.
* `Text.seconds_ordered` — More seconds never become fewer milliseconds.
* `Text.seconds_negative` — With a minus sign a text is refused, whatever it says, unless it rounds to zero.
* `Text.seconds_trailing` — A decimal text with something else behind it is refused, unless it could be an exponent or a hexadecimal number, or a second point behind digits without one.
* `Text.seconds_exact_violated` — Beyond that, milliseconds written out are off by one.
* `Text.seconds_half_violated` — Half way between two milliseconds the result may be the lower one, although 0.5 is added, or the upper one.
* `Text.seconds_form_violated` — The documentation says that other texts are refused. These are not: the empty text, an exponent, hexadecimal digits, white space, minus zero.
* `Text.seconds_undefined_violated` — And for these the conversion is undefined behaviour.

### C133 The output of perf stat is understood (partial)

Modules: `Verif/Text/StatProps.lean`.

For times of whole milliseconds below 2^50. Counts that are missing, negative or too large are taken as well (proved), and a time of zero is not given to the counters (proved).

* `Text.stat_output` — The output of `perf stat` is understood. The counters come out with their names and counts in the order of the rows, all with the time that was printed last, unless that is zero, and the result is true exactly if there are counters.
* `Text.stat_zero` — A time of less than half a millisecond is not given to the counters at all.
* `Text.stat_count_violated` — Counts that do not fit 64 bits are reported as the largest number that does, and missing or negative ones are taken as well.

### C134 The warnings about a recording are those that are due (partial)

Modules: `Verif/Normalizer/StatsProps.lean`.

For recordings with fewer than about 2^56 samples, lost ones included, exactly the due warnings are logged, with one change: what is counted for call chains is their context markers, not the frames without mapping (proved). Beyond that the percentage overflows, which a single record can bring about (proved).

* `Normalizer.warnings_due_partial` — Partial: the statistics are those of the recording. Whenever the recording can be handled, no counter overflows and the warnings logged at the end are exactly those that are due: at least two percent of what is counted is missing. Missing: recordings with some 2^56 samples or more, lost ones included, for which it is false (next theorem).
* `Normalizer.warnings_safe_violated` — The full property fails: one event about lost samples of an unknown event, with a count above some 2^56, is handled without any call of the handler, but the percentage is computed with signed overflow, which is undefined behaviour.
* `Normalizer.warnings_chain_violated` — The full property fails: the warning about frames of call chains without mapping counts the markers of contexts in place of the frames without mapping. A recording whose only frame has its mapping is warned of; one whose only frame has none is not.

### C135 Each record of an ARM SPE trace is shown at its instruction, in the process of its thread (partial)

Modules: `Verif/Whole/Traces.lean`.

Proved from the bytes for all traces, with the mapping looked up among the records that come before the trace once they are in order of time, or held from an earlier sample. Two parts fail and have counterexamples: trace data has no time and is looked at before all records that have one (trace_unstamped, traced_untimed), so mappings made while recording are not found (traced_mapped_violated); and a thread number used again is charged to its last process (traced_thread_violated). Mappings without names, huge pages and continued mappings are excluded as in C109.

* `Whole.shot_shown_partial` — What the profiles made from the bytes of a recording show of all that is sampled, with or without traces of ARM SPE: what a sample record samples, and each record of a trace.
* `Whole.traced_shown_partial` — For what is traced: each record that the processor has traced is shown, at its instruction, in the process of its thread.
* `Whole.traceRecords_encoded` — The records of trace data are those that were traced, whatever the address of the data is.
* `Whole.trace_unstamped` — Trace data has no time: whatever the bytes are, it is looked at before all records that have one, if all events record it.
* `Whole.traced_untimed` — So a record of a trace is looked up only among the mappings recorded without a time, if all events record it.
* `Whole.traced_mapped_violated` — Fails for mappings made during the recording: the mapping stands before the trace in the file, and both records of the trace are in it, but they are shown in no mapping, at address 0, because traces have no time and are looked at first. The sample is shown in it.
* `Whole.traced_thread_violated` — Fails for threads whose number is used again: the records are traced in process 10, of which thread 12 is one when the trace ends; another process has it at the end of the recording, and that one is charged.

### C136 The sample that shows the stack of a sample or of a traced record also shows its labels, the counters of ARM SPE records among them (partial)

Modules: `Verif/Whole/TraceLabels.lean`.

Proved from the bytes for all traces and all samples in one recording, for Steady and Calm recordings (C109) whose samples are set apart from records of traces (SetApart, in Whole/TraceLabels.lean: process and thread told, time and CPU not zero, if the labels are asked for, and the numbers fit). The profile sample that has the labels is the one that shows the stack. Outside: a sample on CPU 0 and a record of a trace, which has no CPU, are put together and the label is lost (traced_cpu_violated). Names given while recording are not shown with records of traces (traced_named_violated).

* `Whole.traced_labelled_partial` — The labels of what is traced: one of the profiles — that of the process of the thread of the record, if there is one for each process — has a profile sample that counts for the first event, whose last frame is the instruction of the record (see `traced_shown_partial`), and whose labels are, in order, those asked for that the record has: its process and thread, the names that comm records before the trace gave to them, the type of the thread, and its counters of cycles in total, until issue and of translation.
* `Whole.sample_labelled_partial` — For samples: the profile sample that shows the stack of a sample also shows its labels. See `shot_shown_partial` for the stack, and `labels_shown_partial` for the labels; here traces of ARM SPE may be in the recording.
* `Whole.traced_cpu_violated` — Fails if samples and records of traces are not told apart: the sample is on CPU 0 and records of traces have no CPU, so the two are put together and the label of the sample is not shown. Without the trace it is.
* `Whole.traced_named_violated` — Fails for what comes after the trace: names given to a process after it, in time or not, are not shown with its records, as traces have no time and are looked at first.

### C137 Everything sampled is shown, whatever the mappings are (partial)

Modules: `Verif/Whole/GapsEx.lean`, `Verif/Whole/Picture.lean`, `Verif/Whole/TraceLabels.lean`, `Verif/Whole/Traces.lean`.

Proved from the bytes for all recordings without processes that have both a mapping without a name and one at 0x400000 (C129), that are Calm (C108) and SetApart (C136); Whole/Picture.lean: Pictures says what is shown. Which huge pages are renamed is told by two bounds, as in C129. Outside: huge pages mapped while perf runs are not named (C129), mappings made while recording are not found by traces (C135), and a sample on CPU 0 is put together with a record of a trace (C136), all proved.

* `Whole.pieces_pictured_partial` — For mappings in pieces (C128): the profiles show what is sampled in the records with the pieces of each mapping in one (`joined`), among which are all records but mappings, unchanged.
* `Whole.recording_pictured_partial` — Whatever the bytes and the mappings are, the profiles show what is sampled in the records with huge pages named after files (`Renames`; at least those that fill the gaps in files, `Closed`, and none of those mapped later, `Still`), and with the mappings in one that go on where others end (`grown`); see C129 for these.
* `Whole.home_kept` — Neither renaming nor joining mappings changes which threads belong to which processes, nor whether there are traces.
* `Whole.huge_later_violated` — What a huge page of a file is shown as depends on when it was mapped. If the same mappings are made while perf runs, the profile does not show the file.
* `Whole.traced_cpu_violated` — Fails if samples and records of traces are not told apart: the sample is on CPU 0 and records of traces have no CPU, so the two are put together and the label of the sample is not shown. Without the trace it is.
* `Whole.traced_mapped_violated` — Fails for mappings made during the recording: the mapping stands before the trace in the file, and both records of the trace are in it, but they are shown in no mapping, at address 0, because traces have no time and are looked at first. The sample is shown in it.

### C138 Reading missing build IDs changes build IDs only, and those of exactly the files with samples for which one is found (proved)

Modules: `Verif/Missing/Filled.lean`, `Verif/Missing/Message.lean`, `Verif/Missing/Props.lean`, `Verif/Missing/Read.lean`.

Missing/Spec.lean says what is looked for where (Finds). The files noted for addresses are those of the parser (C37-C39). That names are without NUL and numbers of threads below 2^32 is proved of all recordings read from bytes (neat_from, prepared_neat). Libelf is a parameter (C122 is about what is made of its sections), and so is the file system, which does not change meanwhile. fstat does not fail.

* `Missing.missing_message` — Reading missing build IDs changes nothing in a message but the table of build IDs (and its bit in the mask).
* `Missing.missing_discard` — If unused mappings are dropped the table is the same as if they are not.
* `Missing.fill_spec` — The table of build IDs afterwards.
* `Missing.found` — What is found for a file.
* `Missing.threads_in`
* `Missing.walked` — What the parser notes is of mappings and samples.
* `Missing.find_total`
* `Missing.neat_from`
* `Missing.prepared_neat`

### C139 A build ID read from a file is that of the file that was mapped (partial)

Modules: `Verif/Missing/Identity.lean`.

Proved for names the first mapping of which tells a device with both numbers not zero: the file has that device and inode. Fails otherwise: if the major or minor number is zero, as on btrfs, overlays and NFS, any file of the name is taken (device_zero_violated), and so it is for mappings with build IDs told by the kernel, which are then replaced (told_violated); only the first mapping of a name counts, so processes in other containers get the build ID of another file, or none (containers_violated).

* `Missing.mapped_file_partial` — Partial: if the first mapping of a name tells a device neither number of which is zero, a build ID that is taken is that of a file with the device and the inode of the mapping, which is found under its name in our root directory, or in that of a thread that has samples in it or of its process. Missing is that it is that of each mapping of the name.
* `Missing.identity_unique` — A name has one identity.
* `Missing.device_zero_violated` — If a number of the device is zero, as it is for files on btrfs, on overlays or on NFS, any file of the name is taken: here one with another device and another inode.
* `Missing.containers_violated` — Two processes that have mapped different files of one name, as in containers, get one build ID, that of the first one's file, and the second one's file is not looked for even if only that has samples.
* `Missing.told_violated` — A mapping with the build ID that the kernel told has no device, so that of any file of the name replaces the one that the kernel told.

### C140 Made-up addresses do not tell where things are in memory (proved)

Modules: `Verif/AddressMapper/Hidden.lean`.

Two runs on a fresh mapper, by a simulation in which both hold the same things at different places. C140_page_told and C140_meeting_told show that what is asked of the moves is needed. Ranges that end exactly at 2^64 and an exhausted made-up space are left out, as in C03.

* `AddressMapper.C140_hidden` — Moving the requested ranges about in memory changes neither the answers to the requests nor what the mapper makes of any requested address: made-up address, identifier and offset.
* `AddressMapper.C140_anywhere` — For ranges that do not meet: they can be anywhere, in any order, as long as their places within pages are the same.
* `AddressMapper.C140_page_told` — Not so for the place within a page: it can be told from the made-up address.
* `AddressMapper.C140_meeting_told` — Nor for the order of requests for the same addresses: a range asked for later hides an earlier one, so how ranges meet can be told.

### C141 A remapped recording does not tell where things are in memory (proved)

Modules: `Verif/Parser/Hidden.lean`.

Two runs of the parser in lockstep; every mapper of one holds the same things at other places than that of the other (C140). The last four theorems show what can be told: addresses in no mapping, badly ordered branches, everything without remapping, and the place of a kernel whose first mapping begins below its offset.

* `Parser.C141_hidden` — With remapping, what the parser makes of a recording, everything it returns, is the same wherever things were in the memory of the processes.
* `Parser.C141_unmapped_told` — What an address in no mapping is, is told: only its highest hexadecimal digit is lost.
* `Parser.C141_branches_told` — Branches with a null one before the last are left as they are, with the addresses in memory.
* `Parser.C141_plain_told` — Without remapping everything is told.
* `Parser.C141_kernel_told` — If the first mapping of the kernel begins below the offset given with it, the place of the kernel is told: what is left of the mapping above that offset is its size.

### C142 Processes do not influence what is reported about each other (proved)

Modules: `Verif/Parser/Alone.lean`.

Two runs of the parser in lockstep; their tables agree on the processes in the set. The other theorems show that the parents have to be the same, and that with the discard option the samples of a child do influence which mappings of its parent are kept. Mappings of the kernel have to be the same in both, as the first is normalised.

* `Parser.C142_alone` — Two recordings that may differ in everything about processes that are neither in `K` nor, as all in `K` have theirs there, parents of those: what is made of the events about the processes in `K`, the mappings and samples with their new addresses and what is reported about them, is the same.
* `Parser.C142_parent_told` — Parents do have to be the same: what the child has in memory is told by what its parent had.
* `Parser.C142_discard_told` — Mappings without samples have to be kept: a child's samples decide whether a mapping its parent made is dropped.
