{
 "claims": [
  {
   "property": "C01",
   "status": "partial",
   "theorems": [
    "BX.C01_join_or_variant_partial",
    "BX.C01_order_dependent",
    "BX.C01_order_independent_partial",
    "BX.C01_string_sticks_partial"
   ],
   "note": "Full statement is false of the code (C01_order_dependent gives the witness). Proved: order independence when no intermediate join is VARIANT-short-circuited."
  },
  {
   "property": "C02",
   "status": "proved",
   "theorems": [
    "BX.C02_join_algebra",
    "BX.C02_join_is_lub",
    "BX.C02_markers_not_commutative",
    "BX.C02_order"
   ],
   "note": "JoinTypes is the least upper bound on value types; marker types are excluded as C02_markers_not_commutative shows."
  },
  {
   "property": "C03",
   "status": "partial",
   "theorems": [
    "BX.C03_double_refused",
    "BX.C03_int32_partial",
    "BX.C03_never_refused_partial",
    "BX.C03_other_refusals",
    "BX.C03_refuted",
    "BX.C03_uint32_refused",
    "BX.C03_undefined"
   ],
   "note": "Refuted for UINT32, DOUBLE and look-alike texts (C03_uint32_refused, C03_double_refused, C03_other_refusals). Proved: texts detected as any of twelve listed types are never refused, and whole numbers are stored with their value."
  },
  {
   "property": "C04",
   "status": "proved",
   "theorems": [
    "BX.C04_int32_roundtrip",
    "BX.C04_text_unique"
   ],
   "note": "Canonical text, detection and parse-back for all 2^32 values; the canonical text is unique."
  },
  {
   "property": "C05",
   "status": "partial",
   "theorems": [
    "BX.C05_detected_partial",
    "BX.C05_extreme_overflows",
    "BX.C05_roundtrip_partial",
    "BX.C05_sign_lost",
    "BX.C05_sign_lost_witness"
   ],
   "note": "Full statement C05_full is refuted (C05_sign_lost_witness). Proved with the exact guard; the band around zero and the extremes are characterised separately."
  },
  {
   "property": "C06",
   "status": "partial",
   "theorems": [
    "BX.C06_int64_roundtrip_partial",
    "BX.C06_minimum",
    "BX.C06_special_constant",
    "BX.C06_uint64_roundtrip"
   ],
   "note": "Unsigned: all values. Signed: all but INT64_MIN (undefined) and, for XBT_ToStringChunk, one special-cased constant (C06_special_constant)."
  },
  {
   "property": "C07",
   "status": "proved",
   "theorems": [
    "BX.C07_accepted_octets",
    "BX.C07_ipv4_roundtrip"
   ],
   "note": "Round trip and detection for every address, and inversion of every accepted text."
  },
  {
   "property": "C08",
   "status": "proved",
   "theorems": [
    "BX.C08_accepts",
    "BX.C08_bounded",
    "BX.C08_roundtrip"
   ],
   "note": "Round trip, exact acceptance of separated hex texts, bounded output."
  },
  {
   "property": "C09",
   "status": "proved",
   "theorems": [
    "BX.C09_guid_roundtrip"
   ],
   "note": "GUID print/detect/scan round trip for all 16-byte values."
  },
  {
   "property": "C10",
   "status": "proved",
   "theorems": [
    "BX.C10_decode",
    "BX.C10_decode_bounded",
    "BX.C10_encode",
    "BX.C10_encode_bounded",
    "BX.C10_roundtrip",
    "BX.C10_unterminated"
   ],
   "note": "RFC 4648 encoding, decoding and bounds for all inputs; C10_unterminated records that the buffer size used by XBT_ToString leaves the text without terminator when size%3 is not 0."
  },
  {
   "property": "C11",
   "status": "partial",
   "theorems": [
    "BX.C11_blob_partial",
    "BX.C11_blob_stale",
    "BX.C11_full_false",
    "BX.C11_string"
   ],
   "note": "Strings: every buffer size. BLOBs: every size but 2 mod 4 (C11_blob_stale shows the failure there, C11_full_false the negation)."
  },
  {
   "property": "C12",
   "status": "partial",
   "theorems": [
    "BX.C12_day_number_partial",
    "BX.C12_exact_partial",
    "BX.C12_rejects",
    "BX.C12_wrong_1968"
   ],
   "note": "Exact for valid dates except the dates of the wrong pre-1970 leap handling (C12_wrong_1968)."
  },
  {
   "property": "C13",
   "status": "partial",
   "theorems": [
    "BX.C13_fails_on_leap_year_end",
    "BX.C13_roundtrip_partial",
    "BX.C13_text_partial",
    "BX.C13_time_of_leap_year_end_ub"
   ],
   "note": "Round trip proved outside the last day of leap years (C13_fails_on_leap_year_end)."
  },
  {
   "property": "C14",
   "status": "partial",
   "theorems": [
    "BX.C14_date_only_partial",
    "BX.C14_milliseconds_partial",
    "BX.C14_rejects_partial",
    "BX.C14_seconds_partial",
    "BX.C14_wraps_after_2106",
    "BX.C14_zone_partial"
   ],
   "note": "Proved for valid timestamps representable in the type; C14_wraps_after_2106 shows the limit."
  },
  {
   "property": "C15",
   "status": "proved",
   "theorems": [
    "BX.C15_capacity",
    "BX.C15_least",
    "BX.C15_monotone",
    "BX.C15_overflow"
   ],
   "note": "BLOB_STRING capacity rule."
  },
  {
   "property": "C16",
   "status": "proved",
   "theorems": [
    "BX.C16_faithful",
    "BX.C16_hex_nul",
    "BX.C16_no_raw"
   ],
   "note": "Escaped output is well-formed and reads back; C16_hex_nul records NULs in HEX output."
  },
  {
   "property": "C17",
   "status": "proved",
   "theorems": [
    "BX.C17_bytes",
    "BX.C17_incomparable",
    "BX.C17_int32",
    "BX.C17_int64",
    "BX.C17_string",
    "BX.C17_swap",
    "BX.C17_uint32",
    "BX.C17_uint64"
   ],
   "note": "Integer, byte-array and string types; sign flip for all types. Floating point comparison is a parameter."
  },
  {
   "property": "C18",
   "status": "partial",
   "theorems": [
    "BX.C18_copy_partial",
    "BX.C18_negative_size",
    "BX.C18_pointer_moves_back",
    "BX.C18_string_overflow"
   ],
   "note": "Refuted for strings longer than the stated size, impossible sizes and VARIANT; proved under the exact guard."
  },
  {
   "property": "C19",
   "status": "partial",
   "theorems": [
    "BX.C19_false_star_in_value",
    "BX.C19_false_star_question",
    "BX.C19_false_trailing_star",
    "BX.C19_match_partial",
    "BX.C19_null_mask",
    "BX.C19_sound_partial"
   ],
   "note": "Exact for masks without '*?' and values without '*', except that a final '*' needs one character; soundness for all values. Refuted in full: C19_false_*."
  },
  {
   "property": "C20",
   "status": "partial",
   "theorems": [
    "BX.C20_false_separator_nul",
    "BX.C20_false_size_zero",
    "BX.C20_false_truncation_unreported",
    "BX.C20_scan_partial"
   ],
   "note": "Proved for value_size >= 1 and a separator other than NUL; both guards are needed (C20_false_*). Truncation is not reported."
  },
  {
   "property": "C21",
   "status": "partial",
   "theorems": [
    "BX.C21_change_partial",
    "BX.C21_dot_slash",
    "BX.C21_false_dot_in_directory"
   ],
   "note": "Proved when the last component has a dot or no directory has one, names shorter than PATH_MAX; C21_false_dot_in_directory refutes the rest."
  },
  {
   "property": "C22",
   "status": "proved",
   "theorems": [
    "BX.C22_mergesort",
    "BX.C22_unique"
   ],
   "note": "Any comparator: permutation and in bounds; ordering comparator: sorted and stable, hence unique (C22_unique). Arrays above 2^30 elements not modelled."
  },
  {
   "property": "C23",
   "status": "proved",
   "theorems": [
    "BX.C23_padded_length",
    "BX.C23_sha1"
   ],
   "note": "Messages below 2^61 bytes (the limit of the standard), every chunking, any uninitialised buffer."
  },
  {
   "property": "C24",
   "status": "partial",
   "theorems": [
    "BX.C24_false_unsorted",
    "BX.C24_permutation_partial"
   ],
   "note": "Terminates, in bounds, permutation. Sortedness is refuted: C24_false_unsorted (1 0 1 2 is left as it is)."
  },
  {
   "property": "C25",
   "status": "proved",
   "theorems": [
    "BX.C25_distinct",
    "BX.C25_ids",
    "BX.C25_members",
    "BX.C25_returned",
    "BX.C25_types"
   ],
   "note": "Registering tag and attribute names keeps the table sorted, without duplicates, with exactly the registered names, stable lookups and the joined types, for every sequence of registrations up to the table's capacity. The reserved name et-tecera is never stored; lookups of it give -9."
  },
  {
   "property": "C26",
   "status": "proved",
   "theorems": [
    "BX.C26_getID"
   ],
   "note": "Lookup in a loaded table: exact, total and in bounds."
  },
  {
   "property": "C27",
   "status": "proved",
   "theorems": [
    "BX.C27_stored",
    "BX.C27_symbols"
   ],
   "note": "A stored table loads with the same names, types and ids; storing succeeds whenever there is room."
  },
  {
   "property": "C28",
   "status": "partial",
   "theorems": [
    "BX.C28_date_attribute_false",
    "BX.C28_date_value_false",
    "BX.C28_document_partial",
    "BX.C28_hex_attribute_false",
    "BX.C28_ipv6_value_false",
    "BX.C28_refused_value_false",
    "BX.C28_string_attribute_false",
    "BX.C28_text_document_partial",
    "BX.C28_time_value_false"
   ],
   "note": "A document built from textual values is converted and read back: same names, attribute names, order, nesting and values, whenever its values fall in the classes TreeOk and TextDoc describe and the buffer has room. Outside of those classes the property is false of the code, with one witness theorem for each way it fails."
  },
  {
   "property": "C29",
   "status": "partial",
   "theorems": [
    "BX.C29_extents_partial",
    "BX.C29_laid"
   ],
   "note": "Alignment, nesting, disjointness and recorded lengths for every tree and start, for values of the classes in TreeOk and as long as the buffer is not filled (silent truncation of a value otherwise)."
  },
  {
   "property": "C30",
   "status": "partial",
   "theorems": [
    "BX.C30_items_partial",
    "BX.C30_load_false",
    "BX.C30_references_false",
    "BX.C30_symbols_partial",
    "BX.C30_types_partial",
    "BX.C30_values_partial"
   ],
   "note": "False as stated: witnesses of accepted files whose references leave the mapping. Proved for every byte string: names (and types, for a non-negative count) of a loaded table never leave the file; items below one that passes the recursive check and has only attributes stored in place; the first attribute of an accepted item that is not stored in place has its value inside the item (C30_values_partial)."
  },
  {
   "property": "C31",
   "status": "partial",
   "theorems": [
    "BX.C31_appended_partial",
    "BX.C31_document_partial",
    "BX.C31_endless_false",
    "BX.C31_original",
    "BX.C31_refused_false",
    "BX.C31_total_partial"
   ],
   "note": "C31_document_partial: any document converted with the append marker as the last child of its root, any history of appends: the file still opens and iterating gives the old children and then all appended elements in order. C31_appended_partial is the same for any file with a marked root whose length is the file's. C31_original: nothing the file answered before changes. C31_total_partial: conversion and all appends succeed when the room computed from the elements is there. False of the code: an element whose value is refused is written without its length while Append reports success, after which later elements are never shown (C31_refused_false) or iterating never ends (C31_endless_false), for all files. Missing: values with storage bugs (see C28_*_false)."
  },
  {
   "property": "C32",
   "status": "partial",
   "theorems": [
    "BX.C32_after_crash_false",
    "BX.C32_torn_partial"
   ],
   "note": "C32_torn_partial: every number of bytes of the last append. C32_after_crash_false: appending after a crash shows a mixed element. Same restrictions on values as C31."
  },
  {
   "property": "C33",
   "status": "partial",
   "theorems": [
    "BX.C33_int64_false",
    "BX.C33_packed_partial"
   ],
   "note": "Proved for all documents stored faithfully (C28) without 8-aligned element values and hashes without collisions among the items of the file, for any buffer contents: packing succeeds, the file is accepted, the root reads as the document, items met in document order are new and further on or were met before. C33_int64_false: an 8-aligned value is misread after packing."
  },
  {
   "property": "C34",
   "status": "partial",
   "theorems": [
    "BX.C34_garbage_false",
    "BX.C34_int64_false",
    "BX.C34_stored_once_partial"
   ],
   "note": "Proved: two elements are one item of the packed file iff their items in the unpacked file have the same bytes; the packed file is not longer. C34_int64_false, C34_garbage_false: equal elements may have different bytes in the unpacked file (padding for 8-aligned values, bytes never written)."
  },
  {
   "property": "C35",
   "status": "partial",
   "theorems": [
    "BX.C35_blocks",
    "BX.C35_defined",
    "BX.C35_grows",
    "BX.C35_refused",
    "BX.C35_refused8_false",
    "BX.C35_refused8_partial"
   ],
   "note": "Blocks obtained by any sequence of requests are aligned, inside the pool, zeroed and disjoint; requests are defined unless sums leave int; a refused 4-byte request changes nothing; an element of any size is made by growing the file as long as the reserved range has room (C35_grows). A refused 8-byte request does move the allocator (C35_refused8_false), by less than eight bytes and nothing else (C35_refused8_partial)."
  },
  {
   "property": "C36",
   "status": "partial",
   "theorems": [
    "BX.C36_joins_all",
    "BX.C36_joins_partial",
    "BX.C36_joins_succeed",
    "BX.C36_lists_partial",
    "BX.C36_once",
    "BX.C36_replace_single_false",
    "BX.C36_succeeds",
    "BX.C36_two_lists_false"
   ],
   "note": "For any history of making, adding, joining (also of a detached circle to an element that is in a list), removing and replacing, enumeration forwards, backwards and of attributes gives the lists of the specification, and every operation succeeds. Replacing the only child is excluded: there enumeration never ends (C36_replace_single_false). The same with every call of join on two elements of a kind (C36_joins_partial, C36_joins_succeed; C36_joins_all shows that none is left out), also with a detached element and one of a list, and with two elements of one list (which takes one part out); except those with children of two elements, after which each is enumerated for both (C36_two_lists_false), and of a tag with an attribute."
  },
  {
   "property": "C37",
   "status": "partial",
   "theorems": [
    "BX.C37_first_partial",
    "BX.C37_last_false",
    "BX.C37_once",
    "BX.C37_refused",
    "BX.C37_succeeds",
    "BX.C37_time_false",
    "BX.C37_typed"
   ],
   "note": "For every document reachable by any history of the calls modelled in Session, and any sequence of attribute writes with any of the 18 attr functions on any of its elements: the attributes afterwards are the earlier ones followed by the accepted writes, every read returns the first of them with the id read, nothing else in the document changes (C37_first_partial); an id written once reads back its value whatever is written before and after (C37_once); a refused write changes nothing; a write of the declared type with room succeeds; the typed getters return the stored value. False of the code as stated: a second write of an id is never read (C37_last_false), and getTime reads eight bytes over a four byte value (C37_time_false). Missing: nothing beyond these falsities for the attr functions; attrCopy is part of C53."
  },
  {
   "property": "C38",
   "status": "partial",
   "theorems": [
    "BX.C38_128_false",
    "BX.C38_absent_partial",
    "BX.C38_again_partial",
    "BX.C38_attribute_first_false",
    "BX.C38_empty_name_false",
    "BX.C38_import_false",
    "BX.C38_names_partial",
    "BX.C38_new_partial",
    "BX.C38_register_partial"
   ],
   "note": "Proved for every history (Sess) of element, link, value, symbol and Clear calls with at most 128 symbols of a kind and non-empty names: names and ids resolve both ways (C38_names_partial), unknown names are not found and names differ (C38_absent_partial), a registration returns the position (C38_register_partial), again the same id (C38_again_partial), and succeeds while there is room (C38_new_partial). False beyond that, each proved: from id 128 on (C38_128_false, for every document with 128 tags), an attribute before any tag (C38_attribute_first_false), importing null (C38_import_false), the empty name (C38_empty_name_false)."
  },
  {
   "property": "C39",
   "status": "partial",
   "theorems": [
    "BX.C39_again_partial",
    "BX.C39_clear_partial",
    "BX.C39_moved_false",
    "BX.C39_refused_false",
    "BX.C39_renamed_false",
    "BX.C39_succeeds_partial"
   ],
   "note": "Proved for every history: after a successful Clear there are no elements and no root, all symbols resolve as before, everything else is free, and what follows is a history of a document with these symbols only (C39_clear_partial); Clear succeeds when the symbols have not moved (C39_succeeds_partial, C39_again_partial). False: Clear can fail after a tag has been registered behind the attributes, and the root is lost (C39_refused_false); where the tags lie above the start and overlap the symbols it never succeeds (C39_moved_false), and one that fails may have given an attribute the name of a tag (C39_renamed_false)."
  },
  {
   "property": "C40",
   "status": "partial",
   "theorems": [
    "BX.C40_found_partial",
    "BX.C40_nested_partial",
    "BX.C40_order_false"
   ],
   "note": "False in general: unregisterPlugin moves bytes instead of pointers, so unregistering in an order other than last-in first-out corrupts the table (C40_order_false). Proved for nested lifetimes of any history."
  },
  {
   "property": "C41",
   "status": "proved",
   "theorems": [
    "BX.C41_count",
    "BX.C41_filled"
   ],
   "note": "Simulation of the two passes for every text and every capacity; least-number remark in an example."
  },
  {
   "property": "C42",
   "status": "partial",
   "theorems": [
    "BX.C42_false",
    "BX.C42_nested_partial",
    "BX.C42_safe",
    "BX.C42_spans"
   ],
   "note": "C42_safe and C42_spans hold for every text and capacity. Enclosure of members (C42_nested_partial) holds for texts that are JSON documents; C42_false shows that the tokenizer accepts other texts (e.g. {}:1) where a parent does not enclose its token."
  },
  {
   "property": "C43",
   "status": "proved",
   "theorems": [
    "BX.C43_sizes",
    "BX.C43_tree",
    "BX.C43_walk"
   ],
   "note": "For every JSON value with any white space: sizes equal the number of tokens in the span, children are enumerated once each and in order, and the recursive enumeration visits every value once in the order of the text with its depth."
  },
  {
   "property": "C44",
   "status": "partial",
   "theorems": [
    "BX.C44_buffer_false",
    "BX.C44_room_partial"
   ],
   "note": "False as stated: witness document that overruns the buffer. Proved: conversion of texts and binary values succeeds and stays within the buffer whenever an explicit size bound computed from the document does not exceed it."
  },
  {
   "property": "C45",
   "status": "partial",
   "theorems": [
    "BX.C45_creator",
    "BX.C45_creator_false",
    "BX.C45_names",
    "BX.C45_param_names_false",
    "BX.C45_params",
    "BX.C45_tags"
   ],
   "note": "The name tables of reserved tags and attributes are mutually inverse; the reader's translation of reserved attribute ids goes through the tag table, which is proved wrong by a witness. The creator's own names of nodes are unambiguous (C45_creator) but not those of the reader (C45_creator_false)."
  },
  {
   "property": "C46",
   "status": "proved",
   "theorems": [
    "BX.C46_force_directory"
   ],
   "note": "For every path and every mkdir behaviour depending on the history of calls."
  },
  {
   "property": "C47",
   "status": "partial",
   "theorems": [
    "BX.C47_minimum_overflows",
    "BX.C47_scanInt64_number_partial",
    "BX.C47_scanInt_number_partial",
    "BX.C47_scanUInt64_decimal_partial",
    "BX.C47_scanUInt64_hex_partial",
    "BX.C47_signed_rejects_partial"
   ],
   "note": "Value, cursor and rejection for all texts; INT_MIN/INT64_MIN texts overflow (C47_minimum_overflows)."
  },
  {
   "property": "C48",
   "status": "proved",
   "theorems": [
    "BX.C48_big_enough",
    "BX.C48_overflow"
   ],
   "note": "For every history; requests above INT_MAX-8192 overflow (C48_overflow)."
  },
  {
   "property": "C49",
   "status": "proved",
   "theorems": [
    "BX.C49_bound_needed",
    "BX.C49_version_order"
   ],
   "note": "Up to four components of at most 255, missing components count as 0."
  },
  {
   "property": "C50",
   "status": "partial",
   "theorems": [
    "BX.C50_copy_partial",
    "BX.C50_false_not_terminated",
    "BX.C50_false_source_null",
    "BX.C50_within_room"
   ],
   "note": "Everything but the terminator; C50_false_not_terminated and C50_false_source_null refute the rest."
  },
  {
   "property": "C51",
   "status": "partial",
   "theorems": [
    "BX.C51_bound_needed",
    "BX.C51_ident_len",
    "BX.C51_unchanged_partial",
    "BX.C51_valid"
   ],
   "note": "Validity for every text and style; unchanged for identifiers of at most 63 characters and styles without U (longer ones are cut, C51_bound_needed)."
  },
  {
   "property": "C52",
   "status": "partial",
   "theorems": [
    "BX.C52_found_partial",
    "BX.C52_hex_false",
    "BX.C52_sha1_false"
   ],
   "note": "For every document reachable by any history of the modelled calls, any element, tag and attribute identification and any value of the text, integer, date, time, IP address and GUID types, when the attributes with that identification have the type looked for: findChildByParam returns the first child in order with the tag and an attribute of that value and nothing if there is none (C52_found_partial). False for digests (20 bytes are compared with 24, never found; C52_sha1_false) and for blocks (only the length field is compared; C52_hex_false). Missing: FLOAT and DOUBLE (comparison of floating point numbers is not modelled), attributes whose stored type differs from the type looked for."
  },
  {
   "property": "C53",
   "status": "partial",
   "theorems": [
    "BX.C53_copy_partial",
    "BX.C53_missing_child_false",
    "BX.C53_text_false"
   ],
   "note": "CopyAll of any tree of a file reproduces identifications, attributes, values and children in order below the destination and leaves the rest of the document alone, when every value fits the type of its symbol (texts are converted), attributes of an element need at most 16000 bytes and there is room. False in general: a child whose attribute is refused is silently missing, a text that is no number becomes 0 (witnesses). The value of the destination itself is not copied by the code."
  },
  {
   "property": "C54",
   "status": "partial",
   "theorems": [
    "BX.C54_document_partial",
    "BX.C54_escape_false",
    "BX.C54_int64_false",
    "BX.C54_tree_partial"
   ],
   "note": "C54_tree_partial and C54_document_partial: for every tree whose names and texts need no escaping and whose attributes are texts, nothing or have four bytes, the printed text exists, its tags are exactly those of the tree in document order and properly nested, whatever the local buffers contained. Missing: attributes of other widths (their place depends on the address). C54_int64_false (a 64 bit number is not terminated, buffer garbage is printed after it) and C54_escape_false (no escaping) show that the full claim is false."
  },
  {
   "property": "C55",
   "status": "partial",
   "theorems": [
    "BX.C55_first_64_partial",
    "BX.C55_stale",
    "BX.C55_text_partial"
   ],
   "note": "Refuted for INT64/UINT64 after the buffers were used once (C55_stale); exact condition proved."
  },
  {
   "property": "C56",
   "status": "proved",
   "theorems": [
    "BX.C56_stable",
    "BX.C56_tight"
   ],
   "note": "And tight (C56_tight)."
  },
  {
   "property": "C57",
   "status": "partial",
   "theorems": [
    "BX.C57_after_2106_false",
    "BX.C57_before_1970_false",
    "BX.C57_roundtrip_partial",
    "BX.C57_text_partial"
   ],
   "note": "The printed text is right for every timestamp from 1970 to 9999 outside the last day of a leap year (where printing is undefined, C13_time_of_leap_year_end_ub), and it is read back before 2106-02-07 06:28:16. Later ones are misread (C57_after_2106_false) and those before 1970 misprinted (C57_before_1970_false)."
  },
  {
   "property": "C58",
   "status": "partial",
   "theorems": [
    "BX.C58_date_false",
    "BX.C58_guid",
    "BX.C58_roundtrip_partial",
    "BX.C58_uint32_false"
   ],
   "note": "Proved for every value except those listed in TextSafe: fixed-point values between -1 and 0 and within 48 of the extreme, INT64_MIN and one constant, last day of leap years, negative or post-2106 timestamps. UINT32 has a text but is never converted back (C58_uint32_false). FLOAT is not modelled; gmtime_r is a parameter assumed to give the right date of the one day concerned."
  },
  {
   "property": "C59",
   "status": "partial",
   "theorems": [
    "BX.C59_name_false",
    "BX.C59_names_partial"
   ],
   "note": "Proved for documents without an array under an empty key; C59_name_false shows the read before the start of the buffer there. A name is a text in a buffer that the next call of getNodeName or getNodeValue overwrites (see C86)."
  },
  {
   "property": "C60",
   "status": "partial",
   "theorems": [
    "BX.C60_blank_false",
    "BX.C60_documents_partial",
    "BX.C60_key_false",
    "BX.C60_refused_partial"
   ],
   "note": "Proved for JSON documents and for texts refused by the tokenizer; C60_blank_false and C60_key_false show texts that are accepted and make jsmn_prepare_total_size read outside the token array."
  },
  {
   "property": "C61",
   "status": "partial",
   "theorems": [
    "BX.C61_made_partial",
    "BX.C61_missing_false",
    "BX.C61_refused",
    "BX.C61_succeeds",
    "BX.C61_time_false",
    "BX.C61_variant_false"
   ],
   "note": "C61_made_partial: the new element holds exactly the given value; C61_refused: a null result changes nothing; C61_succeeds: values of the symbol's type are accepted when there is room. False: C61_time_false (times beyond 32 bits are cut off), C61_variant_false (tagInt32 never makes an element for a symbol without a fixed type), C61_missing_false (six calls never make one). BLOB_STRING is covered through getStr only."
  },
  {
   "property": "C62",
   "status": "partial",
   "theorems": [
    "BX.C62_changes",
    "BX.C62_makes",
    "BX.C62_refused",
    "BX.C62_returned_false",
    "BX.C62_set_partial",
    "BX.C62_single_false",
    "BX.C62_subtree_false",
    "BX.C62_time_false",
    "BX.C62_value"
   ],
   "note": "C62_set_partial: the children are those of an assignment, everything else is the same; C62_value: reading gives the value; C62_refused: a null result changes nothing; C62_makes, C62_changes: when the call succeeds. False: C62_single_false (an only child that must be replaced leaves a list whose enumeration never ends), C62_time_false (a time set again overwrites the next element), C62_returned_false (the old element is returned), C62_subtree_false (children of a replaced child are lost)."
  },
  {
   "property": "C63",
   "status": "partial",
   "theorems": [
    "BX.C63_cycle_false",
    "BX.C63_lists",
    "BX.C63_name",
    "BX.C63_noattrs_false",
    "BX.C63_params",
    "BX.C63_symbols",
    "BX.C63_value",
    "BX.C63_walk_partial"
   ],
   "note": "Going through a tree of a document in any state that a history reaches visits exactly its elements in order with their depths (any finite tree; fuel only has to be large enough); children, attributes, names, identifications, types, values and symbols are those of the document. Missing because false: `add` accepts an element below itself, after which the iteration never ends (C63_cycle_false), and `ForAllParams` of an element without attributes reads the file header as an attribute (C63_noattrs_false)."
  },
  {
   "property": "C64",
   "status": "partial",
   "theorems": [
    "BX.C64_builtin_false",
    "BX.C64_document_partial",
    "BX.C64_text_false",
    "BX.C64_total_partial"
   ],
   "note": "A document whose symbols have types and whose attributes are no texts, in any state that a history reaches, is read back from the file with the same tree. Missing because false: text attributes lose their terminating zero (C64_text_false), built-in names are replaced (C64_builtin_false). The conversion succeeds and stays in the buffer of the creator for every such document (C64_total_partial); assumed for that: at most 32767 attributes of an element, the four bytes copied behind a digest are in the file, the name of the source is not longer than 800 + twice the document."
  },
  {
   "property": "C65",
   "status": "partial",
   "theorems": [
    "BX.C65_check",
    "BX.C65_checked",
    "BX.C65_enumerate",
    "BX.C65_foreign",
    "BX.C65_fresh",
    "BX.C65_new",
    "BX.C65_noattrs_false",
    "BX.C65_reopen",
    "BX.C65_size_false",
    "BX.C65_trusted_false",
    "BX.C65_unready_false"
   ],
   "note": "Proved for every history: the file opens again and holds the same document; registrations are then checks with the right results; foreign files are refused; creating anew gives an empty document. False: the size asked for is ignored (C65_size_false), a header with bad offsets is trusted (C65_trusted_false), a document closed before allRegistered does not recognize its symbols (C65_unready_false), without attributes allRegistered hides failures (C65_noattrs_false)."
  },
  {
   "property": "C66",
   "status": "partial",
   "theorems": [
    "BX.C66_fresh_false",
    "BX.C66_gap_false",
    "BX.C66_next_partial",
    "BX.C66_tag_false",
    "BX.C66_twice_false"
   ],
   "note": "False: never possible in a fresh document (C66_fresh_false, for all sequences of calls), never reported for tags (C66_tag_false, for all documents), gaps lose the symbol (C66_gap_false), known names are doubled (C66_twice_false). Proved: with the next identification in a document with symbols it is registration by name."
  },
  {
   "property": "C67",
   "status": "partial",
   "theorems": [
    "BX.C67_alter",
    "BX.C67_asked",
    "BX.C67_elements_false"
   ],
   "note": "Proved for every history: success exactly when known and convertable, new type answered, nothing else changed. False of existing elements, which keep the old type (C67_elements_false)."
  },
  {
   "property": "C68",
   "status": "partial",
   "theorems": [
    "BX.C68_children_false",
    "BX.C68_null_false",
    "BX.C68_order_false",
    "BX.C68_other_type",
    "BX.C68_others",
    "BX.C68_refused_false",
    "BX.C68_set_partial",
    "BX.C68_succeeds"
   ],
   "note": "Proved for every history and every text: the result tells whether the text differs, reading gives the new text, and nothing else changes where there is room; otherwise the element is replaced by one with the same name and attributes. False of the code and shown so: the replaced child becomes the last one (C68_order_false), its children are lost (C68_children_false), a null pointer is undefined (C68_null_false), and where the type of the name has been changed the call crashes (C68_refused_false)."
  },
  {
   "property": "C69",
   "status": "partial",
   "theorems": [
    "BX.C69_alter",
    "BX.C69_backwards_false",
    "BX.C69_calls_partial",
    "BX.C69_clear_false",
    "BX.C69_clear_partial",
    "BX.C69_clear_stores",
    "BX.C69_first_false",
    "BX.C69_first_partial",
    "BX.C69_first_stores",
    "BX.C69_first_stuck",
    "BX.C69_grow_false",
    "BX.C69_known",
    "BX.C69_later_false",
    "BX.C69_make",
    "BX.C69_make_stores",
    "BX.C69_move_partial",
    "BX.C69_move_stores",
    "BX.C69_register_false",
    "BX.C69_remove_false",
    "BX.C69_remove_first",
    "BX.C69_replace_false",
    "BX.C69_stores",
    "BX.C69_symbol_false",
    "BX.C69_symbol_partial",
    "BX.C69_symbol_stores",
    "BX.C69_table",
    "BX.C69_table_second",
    "BX.C69_table_stores",
    "BX.C69_value",
    "BX.C69_word"
   ],
   "note": "Proved for every history: the stores listed are those of the calls (C69_stores, C69_make_stores); a process killed in add, join, or in a remove or replace that is not of the first of several elements leaves a file that opens and shows the document before or after (C69_calls_partial); killed while an element is made, the one before, and the history goes on (C69_make); killed while a value is stored, only that value differs, byte by byte (C69_value), and a word not even that (C69_word); killed while the indexes of the symbols are made, it shows the document with or without the index (C69_table_stores, C69_table, C69_table_second); killed in a Clear that leaves the names where they are, it shows the document before or the cleared one, and once the symbols are registered exactly one of these (C69_clear_stores, C69_clear_partial), and the same holds where all names are moved to places that no name and no index uses, except at the two points where a table has its new names and still its old index (C69_move_stores, C69_move_partial); killed while a new name is registered in a table that has symbols, where there is room, it opens with all elements, and has the symbols before the call and perhaps one more whose name is a first part of the new name (C69_symbol_stores, C69_symbol_partial); the same holds of the first name of a table (C69_first_stores, C69_first_partial); registering a known name again and changing the type of a symbol are atomic (C69_known, C69_alter). False of the code and shown so: removing the first of several elements has a point that shows it at the end of its list (C69_remove_first, C69_remove_false, for all documents), replacing it has one after which a loop over the children never ends (C69_replace_false, for all documents), while the file grows it cannot be opened any more (C69_grow_false, for all documents), after a crash in add children added later are lost and the list backwards differs (C69_later_false, C69_backwards_false), while the first symbol is registered (C69_register_false), after which no name can ever be registered in that table (C69_first_stuck, for all documents), a part of the first name may be found and not the name (C69_first_false, for all documents), every first part of a new name, even the empty one, may be found as a symbol of its own (C69_symbol_false, for all documents and names), and in a Clear that moves names by less than their size all attributes lose their names and a known name cannot be registered again (C69_clear_false). Missing: crash points of a registration for which the file grows in general, those two points, and a Clear that moves the names of one table only."
  },
  {
   "property": "C70",
   "status": "partial",
   "theorems": [
    "BX.C70_copied",
    "BX.C70_equal_partial",
    "BX.C70_many_false",
    "BX.C70_means",
    "BX.C70_seventeen_false",
    "BX.C70_text_false",
    "BX.C70_twice_false"
   ],
   "note": "C70_equal_partial: for items with at most 16 keys EqualKeys is exactly the comparison of the specification (C70_means says what that is); C70_copied: CopyKeys makes the keys equal and changes nothing else. False in general, with witnesses: items with more than 16 keys are equal to nothing (C70_many_false, for all documents; C70_seventeen_false), a text that is no number is equal to 0 (C70_text_false), a copy of an item with a key twice is not equal to it (C70_twice_false)."
  },
  {
   "property": "C71",
   "status": "partial",
   "theorems": [
    "BX.C71_found",
    "BX.C71_path_partial",
    "BX.C71_refused",
    "BX.C71_root",
    "BX.C71_tag_false",
    "BX.C71_transaction",
    "BX.C71_value_false"
   ],
   "note": "C71_found, C71_path_partial, C71_root, C71_transaction, C71_refused: paths of any length; what is found stays, what is missing is made, the rest of the document is unchanged and a second call returns the same element. False in general, with witnesses: the value of the last item is not copied (C71_value_false); tags of items behind the first are not compared (C71_tag_false). Hypotheses: at most 16 keys of different names for each item, values that can be stored, at most 16000 bytes of attributes in each element and room in the file."
  },
  {
   "property": "C72",
   "status": "partial",
   "theorems": [
    "BX.C72_attr_partial",
    "BX.C72_first_false",
    "BX.C72_item_partial",
    "BX.C72_null_false",
    "BX.C72_pointer_partial",
    "BX.C72_refused",
    "BX.C72_shared_false",
    "BX.C72_text_partial",
    "BX.C72_wide_false",
    "BX.C72_wide_number_false"
   ],
   "note": "False in full: getIntPtr of an item with a text gives the first integer ever asked for (C72_first_false, for all histories); pointers for texts of attributes share one variable (C72_shared_false); getInt64Ptr of a 64-bit attribute gives its position, not the number (C72_wide_false, C72_wide_number_false); -134217728 means no value (C72_null_false). Proved: getInt of items and attributes, the pointers to stored integers after any history, and for texts until the next call."
  },
  {
   "property": "C73",
   "status": "proved",
   "theorems": [
    "BX.C73_above",
    "BX.C73_paths",
    "BX.C73_postorder",
    "BX.C73_preorder"
   ],
   "note": "For every tree of items that the reader shows; the recursion needs as many nested calls as the tree has levels, and the array holds the first 1024 items of the path of a deeper item."
  },
  {
   "property": "C74",
   "status": "partial",
   "theorems": [
    "BX.C74_binary_false",
    "BX.C74_empty_false",
    "BX.C74_mixed_false",
    "BX.C74_names_false",
    "BX.C74_reserved_false",
    "BX.C74_tree_partial"
   ],
   "note": "Proved for text sources all of whose values can be stored, without HEX, SHA1 and UNIX_DATE values and files mapped for less than two gigabytes. False of the code: the names are never registered (C74_names_false, for every source), a name with and without a value reads a null pointer (C74_mixed_false), an empty text may become 0 (C74_empty_false), the reserved name is left out (C74_reserved_false), binary values are left out with all below them (C74_binary_false)."
  },
  {
   "property": "C75",
   "status": "partial",
   "theorems": [
    "BX.C75_cdata_false",
    "BX.C75_declared_false",
    "BX.C75_empty_attr_false",
    "BX.C75_file_partial",
    "BX.C75_first_false",
    "BX.C75_mixed_false",
    "BX.C75_rest_false",
    "BX.C75_seen_partial",
    "BX.C75_visits"
   ],
   "note": "Proved for documents whose elements with text begin with their text and have no other text, and whose attributes have a text node. C75_rest_false, C75_first_false: everything after the first node is no text of the element; a text after a comment, an element or a CDATA section is lost. C75_empty_attr_false: an attribute without a node is a null pointer. C75_declared_false: the namespaces an element declares beside its own are lost. The order and depth of the visits is proved in full (C75_visits)."
  },
  {
   "property": "C76",
   "status": "partial",
   "theorems": [
    "BX.C76_children_false",
    "BX.C76_document_partial",
    "BX.C76_empty_false",
    "BX.C76_hex_false",
    "BX.C76_leaf_partial",
    "BX.C76_name_false",
    "BX.C76_null_false",
    "BX.C76_texts_partial",
    "BX.C76_values_false"
   ],
   "note": "proved for every history of a writable document if names can be written in tags and the values have texts (HEX and BLOB_STRING are outside); white space around texts is not compared except for the exact text of a leaf. C76_texts_partial: elements of text sources without children. False of the code otherwise: HEX prints NUL characters; the texts of XML and JSON sources are lost and their nested elements hit an assertion; attributes without a text and an empty document use null pointers; names are not escaped."
  },
  {
   "property": "C77",
   "status": "partial",
   "theorems": [
    "BX.C77_collision_false",
    "BX.C77_getxb_partial",
    "BX.C77_kind",
    "BX.C77_refused",
    "BX.C77_same_file_false",
    "BX.C77_source_kept",
    "BX.C77_target",
    "BX.C77_unknown_false",
    "BX.C77_wsdl_false"
   ],
   "note": "kinds of sources, kinds and names of made files and kept XML and JSON sources proved for all names; GetXB proved for .xml and .xsd and for refused names (names shorter than PATH_MAX that do not begin with ./). False of the code: for base.wsdl the name base.wb is given although base.xb is made; a source of an unknown kind is a null pointer that is used; base.xml and base.xsd overwrite each other; a writable document converted to one of the same name overwrites its source."
  },
  {
   "property": "C78",
   "status": "partial",
   "theorems": [
    "BX.C78_decimal",
    "BX.C78_eatEnd",
    "BX.C78_fields",
    "BX.C78_go",
    "BX.C78_hex64",
    "BX.C78_hex64_refused",
    "BX.C78_hex_negative_false",
    "BX.C78_hex_overflow_false",
    "BX.C78_hex_partial",
    "BX.C78_none",
    "BX.C78_nul",
    "BX.C78_same",
    "BX.C78_scan",
    "BX.C78_skipLine"
   ],
   "note": "false for hexadecimal texts of GetInt with values from 2^31 - 87 on (undefined behaviour, negative numbers, the null value: C78_hex_overflow_false, C78_hex_negative_false); proved below that, and fully for decimal texts and the other scanners"
  },
  {
   "property": "C79",
   "status": "partial",
   "theorems": [
    "BX.C79_closed",
    "BX.C79_contents",
    "BX.C79_dir_missing",
    "BX.C79_dir_partial",
    "BX.C79_dir_stop_false",
    "BX.C79_empty_false",
    "BX.C79_exists",
    "BX.C79_name_false",
    "BX.C79_read_null",
    "BX.C79_read_partial",
    "BX.C79_share_false",
    "BX.C79_share_partial",
    "BX.C79_size_false",
    "BX.C79_stat",
    "BX.C79_unterminated_false",
    "BX.C79_write",
    "BX.C79_write_false"
   ],
   "note": "false for empty files (C79_empty_false), stored sizes from 2^31 on (C79_size_false), buffers that are filled completely (C79_unterminated_false), the name ??? (C79_name_false), a visit that is stopped with errno set (C79_dir_stop_false), descriptor 0 (C79_share_false) and failed writes (C79_write_false); proved for the rest, for all answers of the system calls"
  },
  {
   "property": "C80",
   "status": "partial",
   "theorems": [
    "BX.C80_any_partial",
    "BX.C80_check_false",
    "BX.C80_day_false",
    "BX.C80_failed",
    "BX.C80_hex_false",
    "BX.C80_retype",
    "BX.C80_short_false",
    "BX.C80_update",
    "BX.C80_update_false",
    "BX.C80_value"
   ],
   "note": "the change of types is proved for all histories. False of the code: a day of four bytes cannot become a number and a GUID cannot become an address of sixteen bytes although the sizes agree (C80_day_false); the size of a text is not checked and the text is destroyed later (C80_short_false); values in hexadecimal digits need four bytes more than their size says (C80_hex_false); the check of tables rejects every table with symbols (C80_check_false); CheckAndUpdateTypes answers that all is well and changes nothing, for every document (C80_update, C80_update_false)."
  },
  {
   "property": "C81",
   "status": "partial",
   "theorems": [
    "BX.C81_amp_false",
    "BX.C81_markup_false",
    "BX.C81_null_false",
    "BX.C81_print_partial"
   ],
   "note": "proved for all sources without characters of markup in values. False of the code: such characters are printed as they are, so that a text may look like an element (C81_markup_false, for all names) or makes the output unreadable (C81_amp_false); an attribute without a value makes printing undefined (C81_null_false)."
  },
  {
   "property": "C82",
   "status": "partial",
   "theorems": [
    "BX.C82_comment_false",
    "BX.C82_failed",
    "BX.C82_files",
    "BX.C82_first",
    "BX.C82_listing_partial",
    "BX.C82_others_false",
    "BX.C82_refused",
    "BX.C82_selftest",
    "BX.C82_selftest_false",
    "BX.C82_small_false",
    "BX.C82_types",
    "BX.C82_unready_false"
   ],
   "note": "C82_first: only the first file is converted, as many times as there are arguments (C82_others_false). C82_selftest: the self test answers yes exactly if all its conversions fail (C82_selftest_false). C82_listing_partial: what xb2xml prints for the file of any history, under the conditions of C76 and if the tables of symbols are made (C82_unready_false) and no name contains > (C82_comment_false). C82_files, C82_refused: texts and exit code of a run; C82_types: names of types. A file smaller than a header is overwritten (C82_small_false)."
  },
  {
   "property": "C83",
   "status": "partial",
   "theorems": [
    "BX.C83_document",
    "BX.C83_late_false",
    "BX.C83_log_partial",
    "BX.C83_succeeds_partial",
    "BX.C83_total_partial"
   ],
   "note": "For every history of a document up to the conversion, and any number of calls of Write in any states of histories with the same symbols: the file opens and iterating over the children of its root gives the children at the time of the conversion and then the elements of all batches in order, each reading as it was in the document when written (C83_log_partial); Write changes nothing in the document but the marks of the batch (C83_document, full). Every such call succeeds: if the document is at most about doubled since the conversion (its size fits the buffer the creator made for it), has at most 32767 attributes in an element, and every element of the batch is complete, all calls of Write return success and the file reads as said (C83_succeeds_partial, C83_total_partial). Guards of the first: as C64_document_partial (typed symbols, values of the form of their type, no text in an attribute). False of the code without the same symbols: an element whose symbol was registered after the conversion is written without its name while Write reports success (C83_late_false)."
  },
  {
   "property": "C84",
   "status": "partial",
   "theorems": [
    "BX.C84_back_partial",
    "BX.C84_data_false",
    "BX.C84_delete_false",
    "BX.C84_destroyed_false",
    "BX.C84_grown_false",
    "BX.C84_held_partial",
    "BX.C84_json_false",
    "BX.C84_reclosed_false",
    "BX.C84_resized_false",
    "BX.C84_retry_false",
    "BX.C84_twice_false"
   ],
   "note": "C84_held_partial and C84_back_partial: for every history in the order of calls that Spec.next allows, all answers of open, fstat and mmap, any number and interleaving of objects: nothing foreign is given back, and after the last finalization or destruction everything is given back except one descriptor for every JSON file that was opened. False of the code: the descriptors of JSON files stay open (C84_json_false), readers initialized twice or destroyed without Finalize (C84_twice_false, C84_destroyed_false), documents tried again after a failure (C84_retry_false), foreign pages unmapped (C84_grown_false, C84_resized_false), a foreign descriptor closed (C84_reclosed_false), memory of creators (C84_delete_false, C84_data_false)."
  },
  {
   "property": "C85",
   "status": "partial",
   "theorems": [
    "BX.C85_defined",
    "BX.C85_positive",
    "BX.C85_repeat_false",
    "BX.C85_repeat_partial"
   ],
   "note": "C85_repeat_partial: two numbers of a process are equal exactly if their random parts differ in the bits in which the counters differ; in particular they are different if random() repeats. C85_positive: never negative (and genU64 gives only the lower half of its range). C85_defined: no call is undefined before the counter is exhausted. False in general: whatever the clock says, random() may return numbers for which two of the first three calls give the same number (C85_repeat_false). Assumed: a clock that is not negative; calls of one thread."
  },
  {
   "property": "C86",
   "status": "partial",
   "theorems": [
    "BX.C86_json_partial",
    "BX.C86_order_false",
    "BX.C86_room_false",
    "BX.C86_types_false"
   ],
   "note": "Proved (C86_json_partial) for a creator that asks for values before names, enough room, no array under an empty key, no element called NULL, texts that can be stored (C28) and at most 32768 names. False of the code: with the other order of evaluation values become names (C86_order_false), lists of short values overflow the buffer (C86_room_false), the types of names are wrong (C86_types_false)."
  },
  {
   "property": "C87",
   "status": "partial",
   "theorems": [
    "BX.C87_attr_false",
    "BX.C87_dash_false",
    "BX.C87_int32",
    "BX.C87_texts_false",
    "BX.C87_texts_partial",
    "BX.C87_zeros_false"
   ],
   "note": "C87_texts_partial: every document of texts that look like nothing else, or are in the form the library prints for the type they look like (attributes: the common type), of kinds that are stored faithfully (C28) with enough room (C44): all texts of all elements and attributes are read unchanged. C87_int32: a text stored as a 32-bit number is read unchanged exactly if it is a canonical numeral. False of the code: zeros in front are lost (C87_zeros_false, universal), of digits-dash-digits only the first part is left (C87_dash_false, universal), hexadecimal numbers, -0.5, four decimal places, GUIDs and words of letters a to f are changed or lost (C87_texts_false), attributes take the form of other attributes of the same name (C87_attr_false)."
  },
  {
   "property": "C88",
   "status": "partial",
   "theorems": [
    "BX.C88_date_false",
    "BX.C88_int64",
    "BX.C88_ipv4_false",
    "BX.C88_strings_false",
    "BX.C88_strings_partial"
   ],
   "note": "Proved for documents whose texts are in the form of the types with four bytes, dates, times, SHA1, GUIDs in small letters, or plain texts, after every history of calls. False in general: IPv4 addresses give a null pointer, the last day of a leap year gives the text of an earlier call, 64-bit numbers are not ended (exact condition proved). Not covered: FLOAT/DOUBLE, BLOB, HEX and 64-bit times in the positive theorem."
  },
  {
   "property": "C89",
   "status": "partial",
   "theorems": [
    "BX.C89_clear",
    "BX.C89_empty_false",
    "BX.C89_grows",
    "BX.C89_moved_false",
    "BX.C89_size_partial"
   ],
   "note": "Proved after every history: getDataSize answers, changes nothing, is at least the bytes of all elements and attributes and less than the file, grows by at least the size of each element made, and is four bytes for each symbol after Clear. That it is the size of the elements is false: the indexes of the symbol tables count (every document ready for use with symbols), and so do names left behind when a symbol is registered after an element was made."
  }
 ]
}