# Formal model of pksoft72/binary_xml in Lean 4

## Approach

The code is C++ and is not run here; the model is a set of small, total, computable Lean functions, one
per C++ function, each carrying a comment with the file and lines it models. Properties are theorems in
`lean/Verif/Props/*.lean`; the independent specifications they refer to are in `lean/Verif/Spec/*.lean`;
the model is in `lean/Verif/Model/*.lean`; helper lemmas are in `lean/Verif/Lemmas/*.lean`. The name of
a property theorem starts with the identifier of its property.

Conventions

* A C string is a `List Char` holding the bytes before the terminator (a byte is a `Char` with code
  < 256); reading `*p` at the end gives NUL. Binary data are `List UInt8`, file and memory images are
  functions from addresses to bytes together with a size.
* Undefined behaviour (signed overflow, access outside of the object, use of an invalid pointer, reading through
  a null pointer) is a separate outcome (`Out.ub`, or `none` where the comment says so), never assumed away. An error
  return is another one (`Out.fail`). Where the code's own guard or a precondition rules undefined behaviour out,
  that is a theorem.
* When a property is false of the code, the model keeps the code's behaviour, the negation is proved with a concrete
  witness (theorems named `..._false`, `..._refuted` or after the failure), and a `_partial` theorem states the guard under
  which the property holds. The witness is evaluated by the kernel (`decide +kernel`); the universally quantified statements
  never are, except over the whole of a finite domain (the 26 type codes).
* Next to each theorem an `example` shows a concrete non-trivial case that meets its hypotheses.

## Trusted base

* Lean 4.33.0's kernel.
* Axioms: at most `propext`, `Classical.choice` and `Quot.sound`. No axiom is added, there is no `sorry`, `admit`, `native_decide` or
  `bv_decide`. Mathlib is not imported. `#print axioms` on every theorem listed in MANIFEST.json prints a subset of these three;
  a few of them (whole-table facts about types and names) need `propext` only or none.
* The faithfulness of the hand-written model to the C++ text. It was written line by line from /repo and is not
  extracted mechanically; nothing was executed. What is modelled and what is not is listed below.
* The specifications in `lean/Verif/Spec`, which have to be read to know what the theorems say.

Assumptions built into the model

* `int` has 32 bits, two's complement; signed overflow is undefined behaviour. `char` is signed, byte order little
  endian, `sizeof(void*)` 8 where it matters (the relative pointers of the file format are 32 bits).
* `assert` is compiled out (as in a release build); the project's own `ASSERT_NO_*` macros log and return, and are modelled as returning.
* Logging (`LOG_ERROR`, `fprintf`) has no effect on the program.
* One thread. Files are changed only by the modelled calls; a crash leaves a prefix of the bytes of the last write.
* Buffers of `malloc` and local arrays have arbitrary contents, which are parameters of the theorems.

Parameters (quantified over in the theorems, with the hypotheses stated there)

* `gmtime_r` on the one day for which the code relies on it (C58); printing, reading and comparison of floating point numbers; `mkdir` (an
  arbitrary function of the history of calls, C46); `ftruncate`/`mmap` growing of the pool (may refuse, C35-C39, C53); the hash function of the packer
  (collision freedom among the items of the file is a hypothesis of C33 and C34; the SHA-1 implementation used is C23).

## What is modelled

| file | lines | model |
|------|-------|-------|
| src/bin_write_plugin.cpp | 36-222 (registry, rings, retype), 223-723 (attributes, navigation), 899-1025 (getters), 1085-1122 (search), 1150-1227 (keys), 1124-1141 (findAttr), 1229-1693 (symbol records, allocation, checkTable), 1834-2003 (opening, growing, closing), 2005-2381 (registration, types, roots, Write, Clear, tags), 757-895 (tagSet*), 1027-1063 (setStr), 1706-1793 and 2383-2602 (elements with values), 2604-2632 (tagData), 2635-2743 (paths), 2745-2767 (CopyAll), 2771-2931 (iteration), 2936-2973 | Pool, Session, Open, Register, Dict, Attrs, Copy, Edit, Source, Plugins, Crash, Keys, Retype, Log |
| src/bin_xml_creator.cpp | 61-66, 93-98, 113-252, 258-305, 360-577, 592-650, 665-1144, 1150-1273 | Symbols, Create, Pack, MakeXbw, Stream, Print, Convert |
| src/bin_xml.cpp | 25-109, 113-146, 172-601, 642-716, 751-827, 884-918 | Image, Dump, Getters |
| src/bin_xml_types.cpp | 49-1247, 1326-1374 (the answer of the self test, for any numbers of failures) | Types, Text, Value, ToText, Dump, Keys, MakeXbw |
| src/bin_xml_packer.cpp | 45-59, 63-79, 85-310, 338-378 | Pack, Convert |
| src/missings.cpp | 17-407 (all) | Sort, Sha1 |
| src/utils.cpp | 17-193, 205-866, 869-1293 | Files, Text, Dates, Utils, Base64, Scan |
| src/files.cpp | 17-175 | Utils, Files |
| src/jsmn/jsmn.c | all | Jsmn |
| src/bin_json_plugin.cpp | 16-43, 107-330 | Jsmn |
| src/bin_xml_plugin.cpp | 63-134 | XmlSource |
| src/tests/2xb.cpp, 2xbw.cpp, xb2xml.cpp | `main` | Tools |

## What is not modelled

* The tests (src/tests/test-*.cpp), CMake, shell scripts; `XBT_TestType` (it is a test).
* In src/bin_xml_plugin.cpp the calls of libxml2 (1-59): the model begins with the tree of nodes that libxml2 gives. src/macros.cpp.
* Failures of `open`, `fstat`, `mmap` and `munmap` (a refused `ftruncate` is modelled), the methods of the network and of
  external plugins.
* bin_xml_creator.cpp 30-112 (but the names and `getNodeBinValue`), 307-355: the third constructor (it reads the member it should set), destruction of the creator; `XML2BIN` as
  a whole is the composition of the modelled steps.
* The text parser of XML files: it is libxml2, which is not part of the repository.
* Floating point arithmetic (`FLOAT`, `DOUBLE` values are bytes; their printing and comparison are parameters or excluded, as the theorems say).
* Concurrency: the code has no synchronisation; nothing is claimed for concurrent use.

## Properties: what is modelled, how it is proved, what came out

### C01. Type inference does not depend on the order of values (partial)

* Modelled: XBT_JoinTypes/Detect2 over the 26 type codes; fold over a list of texts.
* Proof: algebra of the join table (finite, whole table), lifted by induction on lists; counterexample for mixed order.
* Result: Full statement is false of the code (C01_order_dependent gives the witness). Proved: order independence when no intermediate join is VARIANT-short-circuited.
* Theorems: `C01_join_or_variant_partial`, `C01_order_dependent`, `C01_order_independent_partial`, `C01_string_sticks_partial`.

### C02. Joining two types is a least-upper-bound operation (proved)

* Modelled: XBT_JoinTypes.
* Proof: whole-table kernel decision over 26x26 and 26x26x26.
* Result: JoinTypes is the least upper bound on value types; marker types are excluded as C02_markers_not_commutative shows.
* Theorems: `C02_join_algebra`, `C02_join_is_lub`, `C02_markers_not_commutative`, `C02_order`.

### C03. A detected type can always be converted (partial)

* Modelled: XBT_Detect, XBT_FromString dispatch.
* Proof: counterexample (UINT32, DOUBLE have no conversion) and partial theorem.
* Result: Refuted for UINT32, DOUBLE and look-alike texts (C03_uint32_refused, C03_double_refused, C03_other_refusals). Proved: texts detected as any of twelve listed types are never refused, and whole numbers are stored with their value.
* Theorems: `C03_double_refused`, `C03_int32_partial`, `C03_never_refused_partial`, `C03_other_refusals`, `C03_refuted`, `C03_uint32_refused`, `C03_undefined`.

### C04. 32-bit integers survive text conversion (proved)

* Modelled: snprintf "%d", atoi, XBT_Detect.
* Proof: digit-list induction.
* Result: Canonical text, detection and parse-back for all 2^32 values; the canonical text is unique.
* Theorems: `C04_int32_roundtrip`, `C04_text_unique`.

### C05. Fixed-point decimals survive text conversion (partial)

* Modelled: decimal printing and str2dec with int overflow as UB.
* Proof: digit-list induction; counterexample around zero.
* Result: Full statement C05_full is refuted (C05_sign_lost_witness). Proved with the exact guard; the band around zero and the extremes are characterised separately.
* Theorems: `C05_detected_partial`, `C05_extreme_overflows`, `C05_roundtrip_partial`, `C05_sign_lost`, `C05_sign_lost_witness`.

### C06. 64-bit integers survive text conversion (partial)

* Modelled: INT64/UINT64 printing, Int64ToStr, ScanInt64/ScanUInt64.
* Proof: digit-list induction; counterexample for the special-cased constant.
* Result: Unsigned: all values. Signed: all but INT64_MIN (undefined) and, for XBT_ToStringChunk, one special-cased constant (C06_special_constant).
* Theorems: `C06_int64_roundtrip_partial`, `C06_minimum`, `C06_special_constant`, `C06_uint64_roundtrip`.

### C07. IPv4 addresses survive text conversion (proved)

* Modelled: ScanIPv4, IPv4 print.
* Proof: composition of ScanInt lemma.
* Result: Round trip and detection for every address, and inversion of every accepted text.
* Theorems: `C07_accepted_octets`, `C07_ipv4_roundtrip`.

### C08. Hexadecimal text round trip (proved)

* Modelled: ScanHex, Hex2Str, GUID2Str.
* Proof: list induction.
* Result: Round trip, exact acceptance of separated hex texts, bounded output.
* Theorems: `C08_accepts`, `C08_bounded`, `C08_roundtrip`.

### C09. GUID text round trip (proved)

* Modelled: ScanHex, Hex2Str, GUID2Str.
* Proof: list induction.
* Result: GUID print/detect/scan round trip for all 16-byte values.
* Theorems: `C09_guid_roundtrip`.

### C10. Base64 round trip (proved)

* Modelled: base64_encode/decode.
* Proof: induction in steps of three bytes.
* Result: RFC 4648 encoding, decoding and bounds for all inputs; C10_unterminated records that the buffer size used by XBT_ToString leaves the text without terminator when size%3 is not 0.
* Theorems: `C10_decode`, `C10_decode_bounded`, `C10_encode`, `C10_encode_bounded`, `C10_roundtrip`, `C10_unterminated`.

### C11. Chunked text output equals whole output (partial)

* Modelled: XBT_ToStringChunk for STRING and BLOB, iterated.
* Proof: induction on remaining length.
* Result: Strings: every buffer size. BLOBs: every size but 2 mod 4 (C11_blob_stale shows the failure there, C11_full_false the negation).
* Theorems: `C11_blob_partial`, `C11_blob_stale`, `C11_full_false`, `C11_string`.

### C12. Calendar dates convert correctly (partial)

* Modelled: ScanUnixDate, UnixDate2Str, ScanUnixTime, ScanUnixTime64msec against an independent calendar.
* Proof: arithmetic over the 400-year cycle.
* Result: Exact for valid dates except the dates of the wrong pre-1970 leap handling (C12_wrong_1968).
* Theorems: `C12_day_number_partial`, `C12_exact_partial`, `C12_rejects`, `C12_wrong_1968`.

### C13. Dates round trip through text (partial)

* Modelled: ScanUnixDate, UnixDate2Str, ScanUnixTime, ScanUnixTime64msec against an independent calendar.
* Proof: arithmetic over the 400-year cycle.
* Result: Round trip proved outside the last day of leap years (C13_fails_on_leap_year_end).
* Theorems: `C13_fails_on_leap_year_end`, `C13_roundtrip_partial`, `C13_text_partial`, `C13_time_of_leap_year_end_ub`.

### C14. Timestamps convert correctly (partial)

* Modelled: ScanUnixDate, UnixDate2Str, ScanUnixTime, ScanUnixTime64msec against an independent calendar.
* Proof: arithmetic over the 400-year cycle.
* Result: Proved for valid timestamps representable in the type; C14_wraps_after_2106 shows the limit.
* Theorems: `C14_date_only_partial`, `C14_milliseconds_partial`, `C14_rejects_partial`, `C14_seconds_partial`, `C14_wraps_after_2106`, `C14_zone_partial`.

### C15. String capacity reservation (proved)

* Modelled: XBT_GetBLOB_STRING_Size.
* Proof: invariant of the doubling loop.
* Result: BLOB_STRING capacity rule.
* Theorems: `C15_capacity`, `C15_least`, `C15_monotone`, `C15_overflow`.

### C16. XML output is safe and faithful (proved)

* Modelled: escaping loop of XBT_ToXMLStream.
* Proof: list induction.
* Result: Escaped output is well-formed and reads back; C16_hex_nul records NULs in HEX output.
* Theorems: `C16_faithful`, `C16_hex_nul`, `C16_no_raw`.

### C17. Value comparison is a total preorder consistent with the values (proved)

* Modelled: XBT_Compare.
* Proof: case analysis.
* Result: Integer, byte-array and string types; sign flip for all types. Floating point comparison is a parameter.
* Theorems: `C17_bytes`, `C17_incomparable`, `C17_int32`, `C17_int64`, `C17_string`, `C17_swap`, `C17_uint32`, `C17_uint64`.

### C18. Copying a binary value never exceeds the limit (partial)

* Modelled: XBT_Copy over a byte memory with UB outcome.
* Proof: case analysis, alignment arithmetic.
* Result: Refuted for strings longer than the stated size, impossible sizes and VARIANT; proved under the exact guard.
* Theorems: `C18_copy_partial`, `C18_negative_size`, `C18_pointer_moves_back`, `C18_string_overflow`.

### C19. Wildcard matching (partial)

* Modelled: AdvEqual.
* Proof: comparison with an inductive matching relation; counterexamples.
* Result: Exact for masks without '*?' and values without '*', except that a final '*' needs one character; soundness for all values. Refuted in full: C19_false_*.
* Theorems: `C19_false_star_in_value`, `C19_false_star_question`, `C19_false_trailing_star`, `C19_match_partial`, `C19_null_mask`, `C19_sound_partial`.

### C20. Bounded string scan (partial)

* Modelled: ScanStr.
* Proof: list induction.
* Result: Proved for value_size >= 1 and a separator other than NUL; both guards are needed (C20_false_*). Truncation is not reported.
* Theorems: `C20_false_separator_nul`, `C20_false_size_zero`, `C20_false_truncation_unreported`, `C20_scan_partial`.

### C21. Changing a file extension (partial)

* Modelled: AllocFilenameChangeExt.
* Proof: list lemmas on the last dot; counterexample for dots in directories.
* Result: Proved when the last component has a dot or no directory has one, names shorter than PATH_MAX; C21_false_dot_in_directory refutes the rest.
* Theorems: `C21_change_partial`, `C21_dot_slash`, `C21_false_dot_in_directory`.

### C22. Merge sort sorts (proved)

* Modelled: mergesort_r2 on lists of elements, same loop structure.
* Proof: loop invariant: runs of merge_len sorted.
* Result: Any comparator: permutation and in bounds; ordering comparator: sorted and stable, hence unique (C22_unique). Arrays above 2^30 elements not modelled.
* Theorems: `C22_mergesort`, `C22_unique`.

### C23. SHA-1 is FIPS 180 SHA-1 for every message and every chunking (proved)

* Modelled: blk_SHA1_* on 32-bit words.
* Proof: refinement to FIPS 180 padding + schedule; buffer invariant over Update calls.
* Result: Messages below 2^61 bytes (the limit of the standard), every chunking, any uninitialised buffer.
* Theorems: `C23_padded_length`, `C23_sha1`.

### C24. Quick sort sorts (partial)

* Modelled: qsort_r2.
* Proof: search for a counterexample or partition invariant.
* Result: Terminates, in bounds, permutation. Sortedness is refuted: C24_false_unsorted (1 0 1 2 is left as it is).
* Theorems: `C24_false_unsorted`, `C24_permutation_partial`.

### C25. Symbol ids identify names (proved)

* Modelled: FindOrAdd / FindOrAddTyped / Find.
* Proof: sortedness invariant over operations.
* Result: Registering tag and attribute names keeps the table sorted, without duplicates, with exactly the registered names, stable lookups and the joined types, for every sequence of registrations up to the table's capacity. The reserved name et-tecera is never stored; lookups of it give -9.
* Theorems: `C25_distinct`, `C25_ids`, `C25_members`, `C25_returned`, `C25_types`.

### C26. Symbol lookup by name in a loaded file (proved)

* Modelled: getID binary search.
* Proof: loop invariant.
* Result: Lookup in a loaded table: exact, total and in bounds.
* Theorems: `C26_getID`.

### C27. Symbol tables survive storing (proved)

* Modelled: symbol table image and Load.
* Proof: byte layout lemmas.
* Result: A stored table loads with the same names, types and ids; storing succeeds whenever there is room.
* Theorems: `C27_stored`, `C27_symbols`.

### C28. A stored document reads back as the same tree (partial)

* Modelled: WriteNode into a byte memory, reader API.
* Proof: structural induction with frame lemmas.
* Result: A document built from textual values is converted and read back: same names, attribute names, order, nesting and values, whenever its values fall in the classes TreeOk and TextDoc describe and the buffer has room. Outside of those classes the property is false of the code, with one witness theorem for each way it fails.
* Theorems: `C28_date_attribute_false`, `C28_date_value_false`, `C28_document_partial`, `C28_hex_attribute_false`, `C28_ipv6_value_false`, `C28_refused_value_false`, `C28_string_attribute_false`, `C28_text_document_partial`, `C28_time_value_false`.

### C29. Nodes occupy nested, disjoint, aligned extents (partial)

* Modelled: WriteNode into a byte memory, reader API.
* Proof: structural induction with frame lemmas.
* Result: Alignment, nesting, disjointness and recorded lengths for every tree and start, for values of the classes in TreeOk and as long as the buffer is not filled (silent truncation of a value otherwise).
* Theorems: `C29_extents_partial`, `C29_laid`.

### C30. Accepted files are internally consistent (partial)

* Modelled: XML_Item::Check.
* Proof: negation with a concrete image; partial for the checked references.
* Result: False as stated: witnesses of accepted files whose references leave the mapping. Proved for every byte string: names (and types, for a non-negative count) of a loaded table never leave the file; items below one that passes the recursive check and has only attributes stored in place; the first attribute of an accepted item that is not stored in place has its value inside the item (C30_values_partial).
* Theorems: `C30_items_partial`, `C30_load_false`, `C30_references_false`, `C30_symbols_partial`, `C30_types_partial`, `C30_values_partial`.

### C31. Appended elements are all visible, in order (partial)

* Modelled: Append / getNextChild.
* Proof: induction over the append history, truncation at every byte.
* Result: C31_document_partial: any document converted with the append marker as the last child of its root, any history of appends: the file still opens and iterating gives the old children and then all appended elements in order. C31_appended_partial is the same for any file with a marked root whose length is the file's. C31_original: nothing the file answered before changes. C31_total_partial: conversion and all appends succeed when the room computed from the elements is there. False of the code: an element whose value is refused is written without its length while Append reports success, after which later elements are never shown (C31_refused_false) or iterating never ends (C31_endless_false), for all files. Missing: values with storage bugs (see C28_*_false).
* Theorems: `C31_appended_partial`, `C31_document_partial`, `C31_endless_false`, `C31_original`, `C31_refused_false`, `C31_total_partial`.

### C32. A torn append never corrupts the visible document (partial)

* Modelled: Append / getNextChild.
* Proof: induction over the append history, truncation at every byte.
* Result: C32_torn_partial: every number of bytes of the last append. C32_after_crash_false: appending after a crash shows a mixed element. Same restrictions on values as C31.
* Theorems: `C32_after_crash_false`, `C32_torn_partial`.

### C33. Packing preserves the document (partial)

* Modelled: MarkReferences / PackNode.
* Proof: refinement to hash-consing of trees.
* Result: Proved for all documents stored faithfully (C28) without 8-aligned element values and hashes without collisions among the items of the file, for any buffer contents: packing succeeds, the file is accepted, the root reads as the document, items met in document order are new and further on or were met before. C33_int64_false: an 8-aligned value is misread after packing.
* Theorems: `C33_int64_false`, `C33_packed_partial`.

### C34. Packing shares exactly the equal sub-trees (partial)

* Modelled: MarkReferences / PackNode.
* Proof: refinement to hash-consing of trees.
* Result: Proved: two elements are one item of the packed file iff their items in the unpacked file have the same bytes; the packed file is not longer. C34_int64_false, C34_garbage_false: equal elements may have different bytes in the unpacked file (padding for 8-aligned values, bytes never written).
* Theorems: `C34_garbage_false`, `C34_int64_false`, `C34_stored_once_partial`.

### C35. Pool allocation hands out disjoint aligned memory (partial)

* Modelled: allocate/allocate8.
* Proof: invariant over operation lists.
* Result: Blocks obtained by any sequence of requests are aligned, inside the pool, zeroed and disjoint; requests are defined unless sums leave int; a refused 4-byte request changes nothing; an element of any size is made by growing the file as long as the reserved range has room (C35_grows). A refused 8-byte request does move the allocator (C35_refused8_false), by less than eight bytes and nothing else (C35_refused8_partial).
* Theorems: `C35_blocks`, `C35_defined`, `C35_grows`, `C35_refused`, `C35_refused8_false`, `C35_refused8_partial`.

### C36. Children form the list built by the calls (partial)

* Modelled: BW_element rings.
* Proof: representation invariant (offset list) and refinement to lists.
* Result: For any history of making, adding, joining (also of a detached circle to an element that is in a list), removing and replacing, enumeration forwards, backwards and of attributes gives the lists of the specification, and every operation succeeds. Replacing the only child is excluded: there enumeration never ends (C36_replace_single_false). The same with every call of join on two elements of a kind (C36_joins_partial, C36_joins_succeed; C36_joins_all shows that none is left out), also with a detached element and one of a list, and with two elements of one list (which takes one part out); except those with children of two elements, after which each is enumerated for both (C36_two_lists_false), and of a tag with an attribute.
* Theorems: `C36_joins_all`, `C36_joins_partial`, `C36_joins_succeed`, `C36_lists_partial`, `C36_once`, `C36_replace_single_false`, `C36_succeeds`, `C36_two_lists_false`.

### C37. Attribute reads return the last write (partial)

* Modelled: BW_element rings.
* Proof: representation invariant (offset list) and refinement to lists.
* Result: For every document reachable by any history of the calls modelled in Session, and any sequence of attribute writes with any of the 18 attr functions on any of its elements: the attributes afterwards are the earlier ones followed by the accepted writes, every read returns the first of them with the id read, nothing else in the document changes (C37_first_partial); an id written once reads back its value whatever is written before and after (C37_once); a refused write changes nothing; a write of the declared type with room succeeds; the typed getters return the stored value. False of the code as stated: a second write of an id is never read (C37_last_false), and getTime reads eight bytes over a four byte value (C37_time_false). Missing: nothing beyond these falsities for the attr functions; attrCopy is part of C53.
* Theorems: `C37_first_partial`, `C37_last_false`, `C37_once`, `C37_refused`, `C37_succeeds`, `C37_time_false`, `C37_typed`.

### C38. Registered names resolve both ways in a writable pool (partial)

* Modelled: symbol records in the pool.
* Proof: layout lemmas, counterexample at id 128.
* Result: Proved for every history (Sess) of element, link, value, symbol and Clear calls with at most 128 symbols of a kind and non-empty names: names and ids resolve both ways (C38_names_partial), unknown names are not found and names differ (C38_absent_partial), a registration returns the position (C38_register_partial), again the same id (C38_again_partial), and succeeds while there is room (C38_new_partial). False beyond that, each proved: from id 128 on (C38_128_false, for every document with 128 tags), an attribute before any tag (C38_attribute_first_false), importing null (C38_import_false), the empty name (C38_empty_name_false).
* Theorems: `C38_128_false`, `C38_absent_partial`, `C38_again_partial`, `C38_attribute_first_false`, `C38_empty_name_false`, `C38_import_false`, `C38_names_partial`, `C38_new_partial`, `C38_register_partial`.

### C39. Clear drops the data and keeps the dictionary (partial)

* Modelled: Clear.
* Proof: state comparison.
* Result: Proved for every history: after a successful Clear there are no elements and no root, all symbols resolve as before, everything else is free, and what follows is a history of a document with these symbols only (C39_clear_partial); Clear succeeds when the symbols have not moved (C39_succeeds_partial, C39_again_partial). False: Clear can fail after a tag has been registered behind the attributes, and the root is lost (C39_refused_false); where the tags lie above the start and overlap the symbols it never succeeds (C39_moved_false), and one that fails may have given an attribute the name of a tag (C39_renamed_false).
* Theorems: `C39_again_partial`, `C39_clear_partial`, `C39_moved_false`, `C39_refused_false`, `C39_renamed_false`, `C39_succeeds_partial`.

### C40. Registry of writable documents is a set of live plugins (partial)

* Modelled: BW_plugins.
* Proof: counterexample; partial.
* Result: False in general: unregisterPlugin moves bytes instead of pointers, so unregistering in an order other than last-in first-out corrupts the table (C40_order_false). Proved for nested lifetimes of any history.
* Theorems: `C40_found_partial`, `C40_nested_partial`, `C40_order_false`.

### C41. JSON tokens are counted consistently (proved)

* Modelled: jsmn_parse with and without a token array, as one function of the text and the capacity.
* Proof: simulation between the counting and the filling pass, by induction on the remaining text.
* Result: Simulation of the two passes for every text and every capacity; least-number remark in an example.
* Theorems: `C41_count`, `C41_filled`.

### C42. JSON token spans are nested inside the text (partial)

* Modelled: jsmn_parse, its super token stack.
* Proof: invariant of the token array; structural induction on JSON values for enclosure.
* Result: C42_safe and C42_spans hold for every text and capacity. Enclosure of members (C42_nested_partial) holds for texts that are JSON documents; C42_false shows that the tokenizer accepts other texts (e.g. {}:1) where a parent does not enclose its token.
* Theorems: `C42_false`, `C42_nested_partial`, `C42_safe`, `C42_spans`.

### C43. JSON documents are traversed completely (proved)

* Modelled: jsmn_prepare_total_size, ForAllChildren and ForAllChildrenRecursively of the JSON plugin.
* Proof: structural induction on JSON values with arbitrary white space.
* Result: For every JSON value with any white space: sizes equal the number of tokens in the span, children are enumerated once each and in order, and the recursive enumeration visits every value once in the order of the text with its depth.
* Theorems: `C43_sizes`, `C43_tree`, `C43_walk`.

### C44. Conversion buffer is large enough (partial)

* Modelled: size accounting of WriteNode against the buffer formula.
* Proof: counterexample family; partial.
* Result: False as stated: witness document that overruns the buffer. Proved: conversion of texts and binary values succeeds and stays within the buffer whenever an explicit size bound computed from the document does not exceed it.
* Theorems: `C44_buffer_false`, `C44_room_partial`.

### C45. Reserved names are unambiguous (partial)

* Modelled: XTNR2str / XPNR2str.
* Proof: finite table.
* Result: The name tables of reserved tags and attributes are mutually inverse; the reader's translation of reserved attribute ids goes through the tag table, which is proved wrong by a witness. The creator's own names of nodes are unambiguous (C45_creator) but not those of the reader (C45_creator_false).
* Theorems: `C45_creator`, `C45_creator_false`, `C45_names`, `C45_param_names_false`, `C45_params`, `C45_tags`.

### C46. Parent directories are all created (proved)

* Modelled: force_directory against an arbitrary mkdir oracle.
* Proof: list induction.
* Result: For every path and every mkdir behaviour depending on the history of calls.
* Theorems: `C46_force_directory`.

### C47. Numeric scanners accept exactly numbers (partial)

* Modelled: scanners.
* Proof: list induction.
* Result: Value, cursor and rejection for all texts; INT_MIN/INT64_MIN texts overflow (C47_minimum_overflows).
* Theorems: `C47_minimum_overflows`, `C47_scanInt64_number_partial`, `C47_scanInt_number_partial`, `C47_scanUInt64_decimal_partial`, `C47_scanUInt64_hex_partial`, `C47_signed_rejects_partial`.

### C48. Temporary text buffers are big enough (proved)

* Modelled: XBT_Buffer.
* Proof: invariant.
* Result: For every history; requests above INT_MAX-8192 overflow (C48_overflow).
* Theorems: `C48_big_enough`, `C48_overflow`.

### C49. Version strings order like versions (proved)

* Modelled: GetVersion, StrWrite, MakeIdent.
* Proof: list induction.
* Result: Up to four components of at most 255, missing components count as 0.
* Theorems: `C49_bound_needed`, `C49_version_order`.

### C50. Bounded concatenation (partial)

* Modelled: GetVersion, StrWrite, MakeIdent.
* Proof: list induction.
* Result: Everything but the terminator; C50_false_not_terminated and C50_false_source_null refute the rest.
* Theorems: `C50_copy_partial`, `C50_false_not_terminated`, `C50_false_source_null`, `C50_within_room`.

### C51. Identifiers made from arbitrary text are valid (partial)

* Modelled: GetVersion, StrWrite, MakeIdent.
* Proof: list induction.
* Result: Validity for every text and style; unchanged for identifiers of at most 63 characters and styles without U (longer ones are cut, C51_bound_needed).
* Theorems: `C51_bound_needed`, `C51_ident_len`, `C51_unchanged_partial`, `C51_valid`.

### C52. First matching child is found (partial)

* Modelled: findChildByParam, CopyAll.
* Proof: induction over ring/tree.
* Result: For every document reachable by any history of the modelled calls, any element, tag and attribute identification and any value of the text, integer, date, time, IP address and GUID types, when the attributes with that identification have the type looked for: findChildByParam returns the first child in order with the tag and an attribute of that value and nothing if there is none (C52_found_partial). False for digests (20 bytes are compared with 24, never found; C52_sha1_false) and for blocks (only the length field is compared; C52_hex_false). Missing: FLOAT and DOUBLE (comparison of floating point numbers is not modelled), attributes whose stored type differs from the type looked for.
* Theorems: `C52_found_partial`, `C52_hex_false`, `C52_sha1_false`.

### C53. Deep copy reproduces the tree (partial)

* Modelled: findChildByParam, CopyAll.
* Proof: induction over ring/tree.
* Result: CopyAll of any tree of a file reproduces identifications, attributes, values and children in order below the destination and leaves the rest of the document alone, when every value fits the type of its symbol (texts are converted), attributes of an element need at most 16000 bytes and there is room. False in general: a child whose attribute is refused is silently missing, a text that is no number becomes 0 (witnesses). The value of the destination itself is not copied by the code.
* Theorems: `C53_copy_partial`, `C53_missing_child_false`, `C53_text_false`.

### C54. Textual dump is well formed (partial)

* Modelled: XML_Item::write.
* Proof: structural induction.
* Result: C54_tree_partial and C54_document_partial: for every tree whose names and texts need no escaping and whose attributes are texts, nothing or have four bytes, the printed text exists, its tags are exactly those of the tree in document order and properly nested, whatever the local buffers contained. Missing: attributes of other widths (their place depends on the address). C54_int64_false (a 64 bit number is not terminated, buffer garbage is printed after it) and C54_escape_false (no escaping) show that the full claim is false.
* Theorems: `C54_document_partial`, `C54_escape_false`, `C54_int64_false`, `C54_tree_partial`.

### C55. The text of a value does not depend on earlier conversions (partial)

* Modelled: XBT_ToString with the process-wide rotating buffers as state.
* Proof: case analysis over the types with the buffer contents arbitrary.
* Result: Refuted for INT64/UINT64 after the buffers were used once (C55_stale); exact condition proved.
* Theorems: `C55_first_64_partial`, `C55_stale`, `C55_text_partial`.

### C56. Returned texts stay valid for the next 63 conversions (proved)

* Modelled: XBT_Buffer rotation used by XBT_ToString.
* Proof: invariant over any sequence of conversions.
* Result: And tight (C56_tight).
* Theorems: `C56_stable`, `C56_tight`.

### C57. Millisecond timestamps round trip through text (partial)

* Modelled: UnixTime2Str and ScanUnixTime.
* Proof: the calendar specification of C12 and C13.
* Result: The printed text is right for every timestamp from 1970 to 9999 outside the last day of a leap year (where printing is undefined, C13_time_of_leap_year_end_ub), and it is read back before 2106-02-07 06:28:16. Later ones are misread (C57_after_2106_false) and those before 1970 misprinted (C57_before_1970_false).
* Theorems: `C57_after_2106_false`, `C57_before_1970_false`, `C57_roundtrip_partial`, `C57_text_partial`.

### C58. The printed text of a stored value converts back to the stored value (partial)

* Modelled: XBT_ToString and XBT_FromString composed.
* Proof: case analysis over the types, digit-list lemmas of C04-C14.
* Result: Proved for every value except those listed in TextSafe: fixed-point values between -1 and 0 and within 48 of the extreme, INT64_MIN and one constant, last day of leap years, negative or post-2106 timestamps. UINT32 has a text but is never converted back (C58_uint32_false). FLOAT is not modelled; gmtime_r is a parameter assumed to give the right date of the one day concerned.
* Theorems: `C58_date_false`, `C58_guid`, `C58_roundtrip_partial`, `C58_uint32_false`.

### C59. JSON elements are named by their keys (partial)

* Modelled: getNodeName of the JSON plugin on the token array.
* Proof: structural induction on JSON values.
* Result: Proved for documents without an array under an empty key; C59_name_false shows the read before the start of the buffer there. A name is a text in a buffer that the next call of getNodeName or getNodeValue overwrites (see C86).
* Theorems: `C59_name_false`, `C59_names_partial`.

### C60. Opening a JSON file is safe (partial)

* Modelled: Open of the JSON plugin: count, allocate, parse, sizes.
* Proof: composition of C41-C43.
* Result: Proved for JSON documents and for texts refused by the tokenizer; C60_blank_false and C60_key_false show texts that are accepted and make jsmn_prepare_total_size read outside the token array.
* Theorems: `C60_blank_false`, `C60_documents_partial`, `C60_key_false`, `C60_refused_partial`.

### C61. New elements hold the given value (partial)

* Modelled: the calls tagStr to tagIPv6 of the writing plugin (bin_write_plugin.cpp 2383-2602).
* Proof: refinement: the call is a `made` step of the session of C32; reading by C37/C53 lemmas.
* Result: C61_made_partial: the new element holds exactly the given value; C61_refused: a null result changes nothing; C61_succeeds: values of the symbol's type are accepted when there is room. False: C61_time_false (times beyond 32 bits are cut off), C61_variant_false (tagInt32 never makes an element for a symbol without a fixed type), C61_missing_false (six calls never make one). BLOB_STRING is covered through getStr only.
* Theorems: `C61_made_partial`, `C61_missing_false`, `C61_refused`, `C61_succeeds`, `C61_time_false`, `C61_variant_false`.

### C62. Setting a child is an assignment (partial)

* Modelled: tag and tagSet... of an element with BW_pool::tag... (bin_write_plugin.cpp 757-895, 1706-1780).
* Proof: refinement: in-place changes are `stored` steps, new children `made` and `add` steps, replacements `replace` steps of the session of C32.
* Result: C62_set_partial: the children are those of an assignment, everything else is the same; C62_value: reading gives the value; C62_refused: a null result changes nothing; C62_makes, C62_changes: when the call succeeds. False: C62_single_false (an only child that must be replaced leaves a list whose enumeration never ends), C62_time_false (a time set again overwrites the next element), C62_returned_false (the old element is returned), C62_subtree_false (children of a replaced child are lost).
* Theorems: `C62_changes`, `C62_makes`, `C62_refused`, `C62_returned_false`, `C62_set_partial`, `C62_single_false`, `C62_subtree_false`, `C62_time_false`, `C62_value`.

### C63. Going through a writable document shows its tree (partial)

* Modelled: the iteration functions and getNodeBinValue, getSymbol of the writing plugin (bin_write_plugin.cpp 2771-2931).
* Proof: induction over the tree with the ring invariants of C36.
* Result: Going through a tree of a document in any state that a history reaches visits exactly its elements in order with their depths (any finite tree; fuel only has to be large enough); children, attributes, names, identifications, types, values and symbols are those of the document. Missing because false: `add` accepts an element below itself, after which the iteration never ends (C63_cycle_false), and `ForAllParams` of an element without attributes reads the file header as an attribute (C63_noattrs_false).
* Theorems: `C63_cycle_false`, `C63_lists`, `C63_name`, `C63_noattrs_false`, `C63_params`, `C63_symbols`, `C63_value`, `C63_walk_partial`.

### C64. A writable document written to a file reads as the document (partial)

* Modelled: CopySymbolTable and Make_xb with the writing plugin as the source.
* Proof: refinement: the source seen through the iteration functions is the tree of the document, then the theorem about stored trees (C54); enough room: the elements of a tree are different, their parts of the memory are disjoint, each needs at most twice its part in the file.
* Result: A document whose symbols have types and whose attributes are no texts, in any state that a history reaches, is read back from the file with the same tree. Missing because false: text attributes lose their terminating zero (C64_text_false), built-in names are replaced (C64_builtin_false). The conversion succeeds and stays in the buffer of the creator for every such document (C64_total_partial); assumed for that: at most 32767 attributes of an element, the four bytes copied behind a digest are in the file, the name of the source is not longer than 800 + twice the document.
* Theorems: `C64_builtin_false`, `C64_document_partial`, `C64_text_false`, `C64_total_partial`.

### C65. A closed document can be opened again and is the same (partial)

* Modelled: Initialize, InitEmptyFile, CheckExistingFile, Finalize, the header of the file (bin_write_plugin.cpp 1422-1434, 1834-1986) and allRegistered of a checked document.
* Proof: the header written by any history decodes to the same fields; opening is a step of the session of C32, whose invariant shows that the check of the tables succeeds.
* Result: Proved for every history: the file opens again and holds the same document; registrations are then checks with the right results; foreign files are refused; creating anew gives an empty document. False: the size asked for is ignored (C65_size_false), a header with bad offsets is trusted (C65_trusted_false), a document closed before allRegistered does not recognize its symbols (C65_unready_false), without attributes allRegistered hides failures (C65_noattrs_false).
* Theorems: `C65_check`, `C65_checked`, `C65_enumerate`, `C65_foreign`, `C65_fresh`, `C65_new`, `C65_noattrs_false`, `C65_reopen`, `C65_size_false`, `C65_trusted_false`, `C65_unready_false`.

### C66. Symbols can be registered with chosen identifications (partial)

* Modelled: registerTag and registerAttr with an identification (bin_write_plugin.cpp 2005-2098).
* Proof: refutation for all documents where it fails always; equality with registration by name where it works.
* Result: False: never possible in a fresh document (C66_fresh_false, for all sequences of calls), never reported for tags (C66_tag_false, for all documents), gaps lose the symbol (C66_gap_false), known names are doubled (C66_twice_false). Proved: with the next identification in a document with symbols it is registration by name.
* Theorems: `C66_fresh_false`, `C66_gap_false`, `C66_next_partial`, `C66_tag_false`, `C66_twice_false`.

### C67. The type of a symbol can be changed to a wider one (partial)

* Modelled: alterTag and alterAttr (bin_write_plugin.cpp 1344-1385, 2186-2206).
* Proof: refinement: a step of the session of C32 that changes one type in the list of symbols.
* Result: Proved for every history: success exactly when known and convertable, new type answered, nothing else changed. False of existing elements, which keep the old type (C67_elements_false).
* Theorems: `C67_alter`, `C67_asked`, `C67_elements_false`.

### C68. Setting the text of an element changes that text and nothing else (partial)

* Modelled: setStr of an element (bin_write_plugin.cpp 1027-1063).
* Proof: refinement: a change in place is a `stored` step of the session of C32; a replacement is the steps cut, remove, made, add and tie.
* Result: Proved for every history and every text: the result tells whether the text differs, reading gives the new text, and nothing else changes where there is room; otherwise the element is replaced by one with the same name and attributes. False of the code and shown so: the replaced child becomes the last one (C68_order_false), its children are lost (C68_children_false), a null pointer is undefined (C68_null_false), and where the type of the name has been changed the call crashes (C68_refused_false).
* Theorems: `C68_children_false`, `C68_null_false`, `C68_order_false`, `C68_other_type`, `C68_others`, `C68_refused_false`, `C68_set_partial`, `C68_succeeds`.

### C69. A process killed in a call leaves a file that opens and shows the document before or after the call (partial)

* Modelled: the stores of join, add, remove, replace, new_element, init, registerTag and makeSpace, one by one (Model/Crash.lean), those of Clear (Model/CrashClear.lean), those of registering a name (Model/CrashRegister.lean), a first or known one and changing a type (Model/CrashFirst.lean), and opening what they leave.
* Proof: the list of stores is shown to do what the call does; for each prefix of it the links forwards are those of the document before or after (or of the list turned by one), with the ring invariants of C36 and the memory invariants of C32; making an element stores into free memory only.
* Result: Proved for every history: the stores listed are those of the calls (C69_stores, C69_make_stores); a process killed in add, join, or in a remove or replace that is not of the first of several elements leaves a file that opens and shows the document before or after (C69_calls_partial); killed while an element is made, the one before, and the history goes on (C69_make); killed while a value is stored, only that value differs, byte by byte (C69_value), and a word not even that (C69_word); killed while the indexes of the symbols are made, it shows the document with or without the index (C69_table_stores, C69_table, C69_table_second); killed in a Clear that leaves the names where they are, it shows the document before or the cleared one, and once the symbols are registered exactly one of these (C69_clear_stores, C69_clear_partial), and the same holds where all names are moved to places that no name and no index uses, except at the two points where a table has its new names and still its old index (C69_move_stores, C69_move_partial); killed while a new name is registered in a table that has symbols, where there is room, it opens with all elements, and has the symbols before the call and perhaps one more whose name is a first part of the new name (C69_symbol_stores, C69_symbol_partial); the same holds of the first name of a table (C69_first_stores, C69_first_partial); registering a known name again and changing the type of a symbol are atomic (C69_known, C69_alter). False of the code and shown so: removing the first of several elements has a point that shows it at the end of its list (C69_remove_first, C69_remove_false, for all documents), replacing it has one after which a loop over the children never ends (C69_replace_false, for all documents), while the file grows it cannot be opened any more (C69_grow_false, for all documents), after a crash in add children added later are lost and the list backwards differs (C69_later_false, C69_backwards_false), while the first symbol is registered (C69_register_false), after which no name can ever be registered in that table (C69_first_stuck, for all documents), a part of the first name may be found and not the name (C69_first_false, for all documents), every first part of a new name, even the empty one, may be found as a symbol of its own (C69_symbol_false, for all documents and names), and in a Clear that moves names by less than their size all attributes lose their names and a known name cannot be registered again (C69_clear_false). Missing: crash points of a registration for which the file grows in general, those two points, and a Clear that moves the names of one table only.
* Theorems: `C69_alter`, `C69_backwards_false`, `C69_calls_partial`, `C69_clear_false`, `C69_clear_partial`, `C69_clear_stores`, `C69_first_false`, `C69_first_partial`, `C69_first_stores`, `C69_first_stuck`, `C69_grow_false`, `C69_known`, `C69_later_false`, `C69_make`, `C69_make_stores`, `C69_move_partial`, `C69_move_stores`, `C69_register_false`, `C69_remove_false`, `C69_remove_first`, `C69_replace_false`, `C69_stores`, `C69_symbol_false`, `C69_symbol_partial`, `C69_symbol_stores`, `C69_table`, `C69_table_second`, `C69_table_stores`, `C69_value`, `C69_word`.

### C70. Elements are identified by their key attributes (partial)

* Modelled: EqualKeys, CopyKeys and XBT_Equal (bin_write_plugin.cpp 1150-1227, bin_xml_types.cpp 1117-1160).
* Proof: induction over the attributes of the item and over the ring of the attributes of the element; CopyKeys is a sequence of `copied` and `add` steps of the session of C32.
* Result: C70_equal_partial: for items with at most 16 keys EqualKeys is exactly the comparison of the specification (C70_means says what that is); C70_copied: CopyKeys makes the keys equal and changes nothing else. False in general, with witnesses: items with more than 16 keys are equal to nothing (C70_many_false, for all documents; C70_seventeen_false), a text that is no number is equal to 0 (C70_text_false), a copy of an item with a key twice is not equal to it (C70_twice_false).
* Theorems: `C70_copied`, `C70_equal_partial`, `C70_many_false`, `C70_means`, `C70_seventeen_false`, `C70_text_false`, `C70_twice_false`.

### C71. A path of items of a file leads to one element of the document (partial)

* Modelled: CopyPath_ with its two entries (bin_write_plugin.cpp 2635-2743).
* Proof: induction over the items of the path: those that are found leave the pool as it is, for each new one the steps made, add and the copied keys of C70, the last with C53; then the search of C70 in the new document gives the new elements.
* Result: C71_found, C71_path_partial, C71_root, C71_transaction, C71_refused: paths of any length; what is found stays, what is missing is made, the rest of the document is unchanged and a second call returns the same element. False in general, with witnesses: the value of the last item is not copied (C71_value_false); tags of items behind the first are not compared (C71_tag_false). Hypotheses: at most 16 keys of different names for each item, values that can be stored, at most 16000 bytes of attributes in each element and room in the file.
* Theorems: `C71_found`, `C71_path_partial`, `C71_refused`, `C71_root`, `C71_tag_false`, `C71_transaction`, `C71_value_false`.

### C72. The integer getters give the stored integers (partial)

* Modelled: the integer getters (bin_xml.cpp 113-146, 398-474, bin_xml.h 151-157) with the variables they return pointers to.
* Proof: case analysis by the type the reader shows; induction over the calls in between for what stays; refutation for all histories where a variable is shared or initialized once.
* Result: False in full: getIntPtr of an item with a text gives the first integer ever asked for (C72_first_false, for all histories); pointers for texts of attributes share one variable (C72_shared_false); getInt64Ptr of a 64-bit attribute gives its position, not the number (C72_wide_false, C72_wide_number_false); -134217728 means no value (C72_null_false). Proved: getInt of items and attributes, the pointers to stored integers after any history, and for texts until the next call.
* Theorems: `C72_attr_partial`, `C72_first_false`, `C72_item_partial`, `C72_null_false`, `C72_pointer_partial`, `C72_refused`, `C72_shared_false`, `C72_text_partial`, `C72_wide_false`, `C72_wide_number_false`.

### C73. All items below an item are visited once, in order (proved)

* Modelled: the three visits (bin_xml.cpp 291-336); the calls of the function are the result.
* Proof: mutual induction over the tree of items; the array holds the path as an invariant of the third visit.
* Result: For every tree of items that the reader shows; the recursion needs as many nested calls as the tree has levels, and the array holds the first 1024 items of the path of a deeper item.
* Theorems: `C73_above`, `C73_paths`, `C73_postorder`, `C73_preorder`.

### C74. Making a writable document of a text source stores its whole tree (partial)

* Modelled: Make_xbw, XStore2XBWEvent, XBWStoreParamsEvent, XBWStoreChildrenEvent (bin_xml_creator.cpp 592-650, 997-1144) and XBT_SizeFromString (bin_xml_types.cpp 658-698).
* Proof: mutual induction over the source tree: each element is the session steps space, made, add of C32, then the tree is read back as in C53; refutations for the names (always) and for mixed, empty, reserved and binary values.
* Result: Proved for text sources all of whose values can be stored, without HEX, SHA1 and UNIX_DATE values and files mapped for less than two gigabytes. False of the code: the names are never registered (C74_names_false, for every source), a name with and without a value reads a null pointer (C74_mixed_false), an empty text may become 0 (C74_empty_false), the reserved name is left out (C74_reserved_false), binary values are left out with all below them (C74_binary_false).
* Theorems: `C74_binary_false`, `C74_empty_false`, `C74_mixed_false`, `C74_names_false`, `C74_reserved_false`, `C74_tree_partial`.

### C75. The XML source shows the elements, attributes and texts of the parsed document (partial)

* Modelled: the XML source over the tree of nodes of libxml2 (bin_xml_plugin.cpp 63-134).
* Proof: mutual induction over the tree of nodes; the file from end to end by C28; refutations for text that is not the first node (universal), CDATA, attributes without a node and declared namespaces.
* Result: Proved for documents whose elements with text begin with their text and have no other text, and whose attributes have a text node. C75_rest_false, C75_first_false: everything after the first node is no text of the element; a text after a comment, an element or a CDATA section is lost. C75_empty_attr_false: an attribute without a node is a null pointer. C75_declared_false: the namespaces an element declares beside its own are lost. The order and depth of the visits is proved in full (C75_visits).
* Theorems: `C75_cdata_false`, `C75_declared_false`, `C75_empty_attr_false`, `C75_file_partial`, `C75_first_false`, `C75_mixed_false`, `C75_rest_false`, `C75_seen_partial`, `C75_visits`.

### C76. A document printed as XML is read as the document (partial)

* Modelled: printing a source with `<<` (bin_xml_creator.cpp 150-252, XBT_ToXMLStream), of a writable document after any history and of text sources.
* Proof: elements of a history are aligned for their types (induction over histories); the printed text by mutual induction over the tree, all lengths of values by induction over chunks; read back by a separate small XML reader; refutations for HEX, text sources (universal), missing texts, names with markup, empty documents.
* Result: proved for every history of a writable document if names can be written in tags and the values have texts (HEX and BLOB_STRING are outside); white space around texts is not compared except for the exact text of a leaf. C76_texts_partial: elements of text sources without children. False of the code otherwise: HEX prints NUL characters; the texts of XML and JSON sources are lost and their nested elements hit an assertion; attributes without a text and an empty document use null pointers; names are not escaped.
* Theorems: `C76_children_false`, `C76_document_partial`, `C76_empty_false`, `C76_hex_false`, `C76_leaf_partial`, `C76_name_false`, `C76_null_false`, `C76_texts_partial`, `C76_values_false`.

### C77. A conversion reads and makes the files it is asked for (partial)

* Modelled: the choice of the source by its name, the names of files that are read and made, `GetXB` (bin_xml_packer.cpp 63-79, 338-378, bin_xml_creator.cpp 61-66, 258-305, 360-369).
* Proof: properties of the last dot of a text by list induction; the made names by `C21`; refutations (universal) for `.wsdl`, for sources of an unknown kind, for two sources with one result and for a writable document converted in place.
* Result: kinds of sources, kinds and names of made files and kept XML and JSON sources proved for all names; GetXB proved for .xml and .xsd and for refused names (names shorter than PATH_MAX that do not begin with ./). False of the code: for base.wsdl the name base.wb is given although base.xb is made; a source of an unknown kind is a null pointer that is used; base.xml and base.xsd overwrite each other; a writable document converted to one of the same name overwrites its source.
* Theorems: `C77_collision_false`, `C77_getxb_partial`, `C77_kind`, `C77_refused`, `C77_same_file_false`, `C77_source_kept`, `C77_target`, `C77_unknown_false`, `C77_wsdl_false`.

### C78. Texts are scanned up to where they are said to be (partial)

* Modelled: EatEnd, Scan, SkipLine, Go, ScanStrW, ScanUInt64Hex and GetInt (utils.cpp 253-278, 370-390, 715-728, 869-1070).
* Proof: list induction against a positional meaning of hexadecimal numerals; GetInt on decimal texts by the scanner of C18; refutations for hexadecimal numbers from 2^31 - 87 on.
* Result: false for hexadecimal texts of GetInt with values from 2^31 - 87 on (undefined behaviour, negative numbers, the null value: C78_hex_overflow_false, C78_hex_negative_false); proved below that, and fully for decimal texts and the other scanners
* Theorems: `C78_decimal`, `C78_eatEnd`, `C78_fields`, `C78_go`, `C78_hex64`, `C78_hex64_refused`, `C78_hex_negative_false`, `C78_hex_overflow_false`, `C78_hex_partial`, `C78_none`, `C78_nul`, `C78_same`, `C78_scan`, `C78_skipLine`.

### C79. Files and directories are read completely (partial)

* Modelled: ReadFile, WriteToFile, the sharing of files and FileGetSize (utils.cpp 17-193) and files.cpp 44-175; the answers of the system calls are parameters with a rule (Spec/Files.lean).
* Proof: case analysis over the answers; the visit of a directory by induction over its entries against an inductive description of the calls; refutations (universal) for a stopped visit with errno set, empty files, sizes from 2^31 on, descriptor 0 and failed writes.
* Result: false for empty files (C79_empty_false), stored sizes from 2^31 on (C79_size_false), buffers that are filled completely (C79_unterminated_false), the name ??? (C79_name_false), a visit that is stopped with errno set (C79_dir_stop_false), descriptor 0 (C79_share_false) and failed writes (C79_write_false); proved for the rest, for all answers of the system calls
* Theorems: `C79_closed`, `C79_contents`, `C79_dir_missing`, `C79_dir_partial`, `C79_dir_stop_false`, `C79_empty_false`, `C79_exists`, `C79_name_false`, `C79_read_null`, `C79_read_partial`, `C79_share_false`, `C79_share_partial`, `C79_size_false`, `C79_stat`, `C79_unterminated_false`, `C79_write`, `C79_write_false`.

### C80. An element changes its type only to one of the same form (partial)

* Modelled: `retype`, `checkTable` and `tagAny` (bin_write_plugin.cpp 190-222, 1583-1597, 1782-1793).
* Proof: the change of a type is one more step of the histories of C39, whose invariants hold after it; the forms of types against explicit lists (all 26 types); refutations (universal) for days, GUIDs, short values in hexadecimal digits and the check of tables, which rejects every table that is not empty; a witness for a text that is longer than the given size.
* Result: the change of types is proved for all histories. False of the code: a day of four bytes cannot become a number and a GUID cannot become an address of sixteen bytes although the sizes agree (C80_day_false); the size of a text is not checked and the text is destroyed later (C80_short_false); values in hexadecimal digits need four bytes more than their size says (C80_hex_false); the check of tables rejects every table with symbols (C80_check_false); CheckAndUpdateTypes answers that all is well and changes nothing, for every document (C80_update, C80_update_false).
* Theorems: `C80_any_partial`, `C80_check_false`, `C80_day_false`, `C80_failed`, `C80_hex_false`, `C80_retype`, `C80_short_false`, `C80_update`, `C80_update_false`, `C80_value`.

### C81. A printed source is a readable document (partial)

* Modelled: `print`, `s_PrintElement` and `s_PrintParam` (bin_xml_creator.cpp 113-148).
* Proof: structural induction over the tree with the reader of XML of C76; refutations for markup in values (universal: a text that looks like an element), ampersands and attributes without a value (universal).
* Result: proved for all sources without characters of markup in values. False of the code: such characters are printed as they are, so that a text may look like an element (C81_markup_false, for all names) or makes the output unreadable (C81_amp_false); an attribute without a value makes printing undefined (C81_null_false).
* Theorems: `C81_amp_false`, `C81_markup_false`, `C81_null_false`, `C81_print_partial`.

### C82. The command line tools treat every file they are given (partial)

* Modelled: Model/Tools.lean: the loops of 2xb and 2xbw (with the answers of the conversions as parameters), XBT_Test (with the numbers of failures of its calls as parameters), XBT2STR, xb2xml for .xbw files; it uses the models of opening (C65) and printing (C76)..
* Proof: Induction over the arguments and over the symbols; the text of a document by C65_reopen and C76_document_partial. False of the code: files behind the first are not converted, the self test is inverted, a small file is overwritten, tables that were not made, names with '-->'..
* Result: C82_first: only the first file is converted, as many times as there are arguments (C82_others_false). C82_selftest: the self test answers yes exactly if all its conversions fail (C82_selftest_false). C82_listing_partial: what xb2xml prints for the file of any history, under the conditions of C76 and if the tables of symbols are made (C82_unready_false) and no name contains > (C82_comment_false). C82_files, C82_refused: texts and exit code of a run; C82_types: names of types. A file smaller than a header is overwritten (C82_small_false).
* Theorems: `C82_comment_false`, `C82_failed`, `C82_files`, `C82_first`, `C82_listing_partial`, `C82_others_false`, `C82_refused`, `C82_selftest`, `C82_selftest_false`, `C82_small_false`, `C82_types`, `C82_unready_false`.

### C83. Batches of elements are appended to the file made from a document, in order (partial)

* Modelled: Model/Log.lean: `BW_plugin::Write` (bin_write_plugin.cpp 2286-2306) and the creator after Make_xb; `Append` is that of C31. Marking an element as written is one more step of the histories of C39..
* Proof: induction over the circle of a batch (links of C36, the element as the creator gets it by C64), then over the calls; what iteration finds by C31; that every call succeeds from the sizes of the elements of a document, which are apart from each other (total lemmas for Append); refutation for a symbol registered after the file was made.
* Result: For every history of a document up to the conversion, and any number of calls of Write in any states of histories with the same symbols: the file opens and iterating over the children of its root gives the children at the time of the conversion and then the elements of all batches in order, each reading as it was in the document when written (C83_log_partial); Write changes nothing in the document but the marks of the batch (C83_document, full). Every such call succeeds: if the document is at most about doubled since the conversion (its size fits the buffer the creator made for it), has at most 32767 attributes in an element, and every element of the batch is complete, all calls of Write return success and the file reads as said (C83_succeeds_partial, C83_total_partial). Guards of the first: as C64_document_partial (typed symbols, values of the form of their type, no text in an attribute). False of the code without the same symbols: an element whose symbol was registered after the conversion is written without its name while Write reports success (C83_late_false).
* Theorems: `C83_document`, `C83_late_false`, `C83_log_partial`, `C83_succeeds_partial`, `C83_total_partial`.

### C84. Files and mappings are given back (partial)

* Modelled: Model/Handles.lean: the descriptors, mappings (in pages, with the effect of munmap on any mappings) and blocks of memory that `XB_reader`, `Bin_json_plugin`, `BW_plugin` and `Bin_xml_creator` take and give back; the answers of the system calls and the checks of contents are parameters of the calls. Spec/Handles.lean: the order of calls and the histories..
* Proof: Invariant over all histories: what is held is a permutation of what the objects own, what was held before and the lost descriptors of JSON files; one lemma for each method. Refutations where the code does not give back (JSON descriptors, readers initialized twice or destroyed, documents tried again, memory of creators) or gives back what belongs to others (grown JSON files, changed sizes, a second finalization after an error)..
* Result: C84_held_partial and C84_back_partial: for every history in the order of calls that Spec.next allows, all answers of open, fstat and mmap, any number and interleaving of objects: nothing foreign is given back, and after the last finalization or destruction everything is given back except one descriptor for every JSON file that was opened. False of the code: the descriptors of JSON files stay open (C84_json_false), readers initialized twice or destroyed without Finalize (C84_twice_false, C84_destroyed_false), documents tried again after a failure (C84_retry_false), foreign pages unmapped (C84_grown_false, C84_resized_false), a foreign descriptor closed (C84_reclosed_false), memory of creators (C84_delete_false, C84_data_false).
* Theorems: `C84_back_partial`, `C84_data_false`, `C84_delete_false`, `C84_destroyed_false`, `C84_grown_false`, `C84_held_partial`, `C84_json_false`, `C84_reclosed_false`, `C84_resized_false`, `C84_retry_false`, `C84_twice_false`.

### C85. Generated numbers do not repeat and are not negative (partial)

* Modelled: Model/Gen.lean: `genI64`, `genU64` and their counter (utils.cpp 1294-1320); random() and the clock are parameters.
* Proof: induction over the calls gives each number as its random part xor the counter; algebra of xor; the repetition for every clock by the parity of the counter.
* Result: C85_repeat_partial: two numbers of a process are equal exactly if their random parts differ in the bits in which the counters differ; in particular they are different if random() repeats. C85_positive: never negative (and genU64 gives only the lower half of its range). C85_defined: no call is undefined before the counter is exhausted. False in general: whatever the clock says, random() may return numbers for which two of the first three calls give the same number (C85_repeat_false). Assumed: a clock that is not negative; calls of one thread.
* Theorems: `C85_defined`, `C85_positive`, `C85_repeat_false`, `C85_repeat_partial`.

### C86. A JSON file converted to .xb reads as the JSON document (partial)

* Modelled: Model/JsonXb.lean: `Make_xb` with a JSON plugin as source: the registrations of the second pass with the one buffer in which the plugin gives names and values (the order of evaluation is a parameter), `WriteNode` over the handles of the plugin with null names, `FillData`. Spec/JsonXb.lean: the tree a JSON value stands for..
* Proof: induction over the JSON value, with the elements shown by the plugin (C43, C59): the registered names are those of the document, and the writer does the same as for the tree of the document; then C28 and C44. Refutations: names asked for before values, long lists of short values, types of names..
* Result: Proved (C86_json_partial) for a creator that asks for values before names, enough room, no array under an empty key, no element called NULL, texts that can be stored (C28) and at most 32768 names. False of the code: with the other order of evaluation values become names (C86_order_false), lists of short values overflow the buffer (C86_room_false), the types of names are wrong (C86_types_false).
* Theorems: `C86_json_partial`, `C86_order_false`, `C86_room_false`, `C86_types_false`.

### C87. The texts of a document are read unchanged from its file (partial)

* Modelled: Model/ItemText.lean: `getStringChunk` of items and attributes of a file (bin_xml.cpp 172-184, 355-369) over the texts of values (C58); Spec/ItemText.lean: texts in the form of the type they look like, and the tree of texts..
* Proof: structural induction over the tree with C28 (what is stored), C44 (room) and C58 (texts converted back); for 32-bit numbers exactly the canonical numerals are unchanged (iff), by the decimal digits of a number. Refutations: zeros in front and telephone numbers (universal), hexadecimal numbers, -0.5, four decimal places, GUIDs, words of letters a to f, attributes with a common type..
* Result: C87_texts_partial: every document of texts that look like nothing else, or are in the form the library prints for the type they look like (attributes: the common type), of kinds that are stored faithfully (C28) with enough room (C44): all texts of all elements and attributes are read unchanged. C87_int32: a text stored as a 32-bit number is read unchanged exactly if it is a canonical numeral. False of the code: zeros in front are lost (C87_zeros_false, universal), of digits-dash-digits only the first part is left (C87_dash_false, universal), hexadecimal numbers, -0.5, four decimal places, GUIDs and words of letters a to f are changed or lost (C87_texts_false), attributes take the form of other attributes of the same name (C87_attr_false).
* Theorems: `C87_attr_false`, `C87_dash_false`, `C87_int32`, `C87_texts_false`, `C87_texts_partial`, `C87_zeros_false`.

### C88. getString gives the texts of a document (partial)

* Modelled: Model/GetString.lean: `XBT_ToString` with its ring of 64 buffers (bin_xml_types.cpp 700-798) and `getString` of items and attributes (bin_xml.cpp 149-161, 338-353). Spec/GetString.lean: the histories of calls, and what it means that a call gives a text after every history..
* Proof: invariant of the ring over all histories; for every type the text put into the buffer is short and ended; then structural induction over the tree with C28, C44 and C58. Exact condition for 64-bit numbers (iff). Refutations: addresses give null pointers (universal), dates without a text give the text of an earlier call (universal), 64-bit numbers get digits of earlier texts..
* Result: Proved for documents whose texts are in the form of the types with four bytes, dates, times, SHA1, GUIDs in small letters, or plain texts, after every history of calls. False in general: IPv4 addresses give a null pointer, the last day of a leap year gives the text of an earlier call, 64-bit numbers are not ended (exact condition proved). Not covered: FLOAT/DOUBLE, BLOB, HEX and 64-bit times in the positive theorem.
* Theorems: `C88_date_false`, `C88_int64`, `C88_ipv4_false`, `C88_strings_false`, `C88_strings_partial`.

### C89. The size of the data of a document (partial)

* Modelled: Model/DataSize.lean: `getDataSize` (bin_write_plugin.cpp 2360-2364) over `getNamesSize` (C39). Spec/DataSize.lean: the bytes of elements..
* Proof: the invariant of all histories: the parts of a document lie apart behind the header, so their lengths sum to at most the allocator (counting positions); the growth from what making an element allocates; the exact answer after Clear from C39. Refutations: indexes count as data (universal), so do names that were moved (witness)..
* Result: Proved after every history: getDataSize answers, changes nothing, is at least the bytes of all elements and attributes and less than the file, grows by at least the size of each element made, and is four bytes for each symbol after Clear. That it is the size of the elements is false: the indexes of the symbol tables count (every document ready for use with symbols), and so do names left behind when a symbol is registered after an element was made.
* Theorems: `C89_clear`, `C89_empty_false`, `C89_grows`, `C89_moved_false`, `C89_size_partial`.

## Tests of the theorems against wrong programs

seeded/LOG.jsonl has one line per attempt: the definition of the model that was edited in a scratch copy, the edit, the claim it breaks,
the theorems that failed to build and the theorems that were tightened because of it. An edit that left everything provable is either a
program for which the claims still hold (then the note says so) or it led to a stronger theorem.
