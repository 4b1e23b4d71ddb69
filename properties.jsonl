{"id": "C01", "title": "Type inference does not depend on the order of values", "statement": "When the creator infers the storage type of a symbol from the texts it meets, the final type depends only on the multiset of those texts, not on the order in which they occur in the source document; and once a plain string has been seen the type is string.", "quantifier": "every finite sequence of value texts and every permutation of it", "why_tests_cant": "the number of orders is factorial and the text domain infinite; a failing order needs three incompatible kinds of value in one particular sequence", "anchors": ["src/bin_xml_types.cpp:XBT_JoinTypes", "src/bin_xml_types.cpp:XBT_Detect2"]}
{"id": "C02", "title": "Joining two types is a least-upper-bound operation", "statement": "XBT_JoinTypes is idempotent, commutative and associative on the usable value types, and its result equals or generalises both arguments: it is either one of the numeric widenings, a string type, or VARIANT.", "quantifier": "every pair and triple of the 26 type codes", "why_tests_cant": "17576 triples, and the property is about the algebra, not about a sample", "anchors": ["src/bin_xml_types.cpp:XBT_JoinTypes"]}
{"id": "C03", "title": "A detected type can always be converted", "statement": "Whatever type XBT_Detect infers for a text, XBT_FromString with that type accepts the very same text, so that a document never fails to be stored because of a type the library itself chose.", "quantifier": "every text", "why_tests_cant": "infinitely many texts; the failing ones are numbers just above 2^31 or with 20 digits", "anchors": ["src/bin_xml_types.cpp:XBT_Detect", "src/bin_xml_types.cpp:XBT_FromString"]}
{"id": "C04", "title": "32-bit integers survive text conversion", "statement": "For every 32-bit integer v, the text printed for v is detected as INT32, parses back to v, and prints again as the same text.", "quantifier": "all 2^32 values", "why_tests_cant": "2^32 values including both extremes", "anchors": ["src/bin_xml_types.cpp:XBT_ToStringChunk", "src/bin_xml_types.cpp:XBT_Detect", "src/bin_xml_types.cpp:XBT_FromString"]}
{"id": "C05", "title": "Fixed-point decimals survive text conversion", "statement": "For every stored fixed-point value (INT32_DECI, CENTI, MILI, MICRO, NANO) the printed text parses back, under the same type, to the stored value.", "quantifier": "all 2^32 raw values for each of the five scales", "why_tests_cant": "2^32 raw values times five scales; failures sit in a thin band around zero and at the extreme value", "anchors": ["src/bin_xml_types.cpp:XBT_ToStringChunk", "src/bin_xml_types.cpp:str2dec"]}
{"id": "C06", "title": "64-bit integers survive text conversion", "statement": "For every 64-bit signed (unsigned) integer the printed text scans back to the same integer.", "quantifier": "all 2^64 signed and all 2^64 unsigned values", "why_tests_cant": "2^64 values; a single special-cased constant is enough to break it", "anchors": ["src/bin_xml_types.cpp:XBT_ToStringChunk", "src/utils.cpp:Int64ToStr", "src/utils.cpp:ScanInt64", "src/utils.cpp:ScanUInt64"]}
{"id": "C07", "title": "IPv4 addresses survive text conversion", "statement": "For every IPv4 address the dotted text produced is scanned back to the same address, is detected as IPv4, and any accepted text denotes four octets in 0..255.", "quantifier": "all 2^32 addresses and all texts", "why_tests_cant": "2^32 addresses and infinitely many malformed texts", "anchors": ["src/utils.cpp:ScanIPv4", "src/bin_xml_types.cpp:XBT_ToStringChunk", "src/bin_xml_types.cpp:XBT_Detect"]}
{"id": "C08", "title": "Hexadecimal text round trip", "statement": "Scanning the hexadecimal text of any byte string into a buffer large enough returns its length and exactly those bytes; scanning any text never writes beyond the given buffer size.", "quantifier": "every byte string, every text and every buffer size", "why_tests_cant": "unbounded lengths and interspersed separators", "anchors": ["src/utils.cpp:ScanHex", "src/utils.cpp:Hex2Str"]}
{"id": "C09", "title": "GUID text round trip", "statement": "For all 16-byte GUIDs the printed 8-4-4-4-12 text has 36 characters, is detected as GUID unless it looks like a number, and parses back to the same 16 bytes.", "quantifier": "all 2^128 GUIDs", "why_tests_cant": "2^128 values", "anchors": ["src/utils.cpp:GUID2Str", "src/bin_xml_types.cpp:XBT_FromString", "src/bin_xml_types.cpp:XBT_Detect"]}
{"id": "C10", "title": "Base64 round trip", "statement": "Decoding the base64 encoding of any byte string yields the byte string; the encoded length is 4*ceil(n/3); neither direction writes past the destination size it was given.", "quantifier": "every byte string and every destination size", "why_tests_cant": "unbounded input and every residue of the buffer size", "anchors": ["src/utils.cpp:base64_encode", "src/utils.cpp:base64_decode"]}
{"id": "C11", "title": "Chunked text output equals whole output", "statement": "Repeatedly asking for the next chunk of a string or BLOB value with any buffer size yields chunks whose concatenation is the text of the whole value, and the chunk iteration ends.", "quantifier": "every value and every buffer size at least the documented minimum", "why_tests_cant": "unbounded values and all chunk sizes", "anchors": ["src/bin_xml_types.cpp:XBT_ToStringChunk"]}
{"id": "C12", "title": "Calendar dates convert correctly", "statement": "ScanUnixDate returns the number of days between 1970-01-01 and the given Gregorian date, for every valid date.", "quantifier": "every valid date of years 0..9999", "why_tests_cant": "3.6 million dates against an independently defined calendar", "anchors": ["src/utils.cpp:ScanUnixDate"]}
{"id": "C13", "title": "Dates round trip through text", "statement": "For every day number the text produced by UnixDate2Str is a valid calendar date that ScanUnixDate maps back to the same day number.", "quantifier": "every day number from 1970-01-01 to 9999-12-31", "why_tests_cant": "the failing days are one per leap year", "anchors": ["src/utils.cpp:UnixDate2Str", "src/utils.cpp:ScanUnixDate"]}
{"id": "C14", "title": "Timestamps convert correctly", "statement": "ScanUnixTime and ScanUnixTime64msec return seconds (milliseconds) since the epoch of the written date and time, for every valid timestamp.", "quantifier": "every valid date and time of day", "why_tests_cant": "365.25*86400 seconds per year over many years", "anchors": ["src/utils.cpp:ScanUnixTime", "src/utils.cpp:ScanUnixTime64msec"]}
{"id": "C15", "title": "String capacity reservation", "statement": "The capacity reserved for an updatable string of n characters holds n characters and the terminator, is at least 16, less than twice what is needed above that minimum, and is monotone in n.", "quantifier": "every length n", "why_tests_cant": "every integer length; boundary at each power of two", "anchors": ["src/bin_xml_types.cpp:XBT_GetBLOB_STRING_Size"]}
{"id": "C16", "title": "XML output is safe and faithful", "statement": "Text written for a value by XBT_ToXMLStream contains no raw '<', '>' or '\"' and no '&' except as part of an entity, and un-escaping it gives back the original text.", "quantifier": "every text", "why_tests_cant": "infinite texts including texts that already contain entities", "anchors": ["src/bin_xml_types.cpp:XBT_ToXMLStream"]}
{"id": "C17", "title": "Value comparison is a total preorder consistent with the values", "statement": "For two values of the same integer-like type XBT_Compare returns negative, zero, positive exactly as the numbers compare; for byte-array types exactly as their bytes compare lexicographically; swapping arguments flips the sign.", "quantifier": "all pairs of values of each type", "why_tests_cant": "2^64 pairs for 32-bit types alone", "anchors": ["src/bin_xml_types.cpp:XBT_Compare"]}
{"id": "C18", "title": "Copying a binary value never exceeds the limit", "statement": "XBT_Copy either refuses and leaves the destination and the write pointer unchanged, or writes only inside [old pointer, limit), leaves the write pointer within the limit and aligned value bytes equal to the source.", "quantifier": "every type, size, alignment of the write pointer and limit", "why_tests_cant": "all residues of alignment times all remaining sizes", "anchors": ["src/bin_xml_types.cpp:XBT_Copy", "src/bin_xml_types.cpp:XBT_Size2", "src/bin_xml_types.cpp:XBT_Align"]}
{"id": "C19", "title": "Wildcard matching", "statement": "AdvEqual(mask,value) is true exactly when the value matches the mask with '*' standing for any run of characters and '?' for one character.", "quantifier": "every mask and every value", "why_tests_cant": "infinite pairs; backtracking corner cases at the end of the value", "anchors": ["src/utils.cpp:AdvEqual"]}
{"id": "C20", "title": "Bounded string scan", "statement": "ScanStr skips leading white space, takes the field up to the separator (any white space if the separator is a space) or the end, stores the field cut to the buffer plus a terminator - never more than value_size bytes -, leaves the cursor behind the separator, and returns true exactly when the stored text is not empty.", "quantifier": "every input text, separator and buffer size", "why_tests_cant": "all relations between field length and buffer size", "anchors": ["src/utils.cpp:ScanStr"]}
{"id": "C21", "title": "Changing a file extension", "statement": "AllocFilenameChangeExt returns a name in which only the extension of the last path component changed (or was added), in the same or the given directory.", "quantifier": "every path and extension", "why_tests_cant": "infinite paths; dots in directory names are the trap", "anchors": ["src/utils.cpp:AllocFilenameChangeExt"]}
{"id": "C22", "title": "Merge sort sorts", "statement": "mergesort_r2 leaves the array sorted with respect to the comparator, a permutation of the input, with equal elements in their original order.", "quantifier": "every array length and content, every total-preorder comparator", "why_tests_cant": "all lengths and all permutations", "anchors": ["src/missings.cpp:mergesort_r2"]}
{"id": "C23", "title": "SHA-1 is FIPS 180 SHA-1 for every message and every chunking", "statement": "The digest produced by Init/Update*/Final equals the FIPS 180-4 SHA-1 of the concatenated message however the message is split into Update calls.", "quantifier": "every message and every way of splitting it", "why_tests_cant": "every split point against every block boundary", "anchors": ["src/missings.cpp:SHA1", "src/missings.cpp:blk_SHA1_Update", "src/missings.cpp:blk_SHA1_Final"]}
{"id": "C24", "title": "Quick sort sorts", "statement": "qsort_r2 leaves the array sorted and a permutation of the input for every comparator that is a total preorder.", "quantifier": "every array and comparator", "why_tests_cant": "all permutations of all lengths; needs duplicates or a moved pivot to fail", "anchors": ["src/missings.cpp:qsort_r2"]}
{"id": "C25", "title": "Symbol ids identify names", "statement": "After any sequence of symbol registrations in the creator, distinct names have distinct ids, looking a registered name up returns its id, looking up a name never registered reports absence, ids are 0..count-1 in strictly increasing name order, and there are never more than 32768 symbols.", "quantifier": "every sequence of registrations", "why_tests_cant": "unbounded sequences and arbitrary strings", "anchors": ["src/bin_xml_creator.cpp:FindOrAdd", "src/bin_xml_creator.cpp:FindOrAddTyped", "src/bin_xml_creator.cpp:Find"]}
{"id": "C26", "title": "Symbol lookup by name in a loaded file", "statement": "For a symbol table whose names are strictly increasing, XB_reader's name lookup returns i exactly when the i-th name equals the argument and reports failure for every other string.", "quantifier": "every sorted table and every string", "why_tests_cant": "all table sizes and all probe positions of the binary search", "anchors": ["src/bin_xml.cpp:_XB_symbol_table::getID"]}
{"id": "C27", "title": "Symbol tables survive storing", "statement": "Every symbol table written by the creator is accepted by the reader's Load, and name and type read back for each id are those registered.", "quantifier": "every table", "why_tests_cant": "every number and length of names", "anchors": ["src/bin_xml_creator.cpp:WriteSymbolTable", "src/bin_xml.cpp:_XB_symbol_table::Load", "src/bin_xml.cpp:_XB_symbol_table::getSymbol"]}
{"id": "C28", "title": "A stored document reads back as the same tree", "statement": "Reading the binary image written for any source tree through the item API (name, attributes, value, children by index) yields the same tree: same names, same attribute names/values, same value, same children in order.", "quantifier": "every finite tree (any depth, width and attribute count) of convertible values", "why_tests_cant": "trees are infinite; offsets depend on everything written before", "anchors": ["src/bin_xml_creator.cpp:WriteNode", "src/bin_xml_creator.cpp:XStoreParamsEvent", "src/bin_xml.cpp:getChildByIndex", "src/bin_xml.cpp:getParamByIndex"]}
{"id": "C29", "title": "Nodes occupy nested, disjoint, aligned extents", "statement": "Every node in a written image starts at a multiple of four, lies inside its parent's extent, siblings do not overlap, and the recorded length equals the extent.", "quantifier": "every tree and starting alignment", "why_tests_cant": "all trees and all alignments", "anchors": ["src/bin_xml_creator.cpp:WriteNode"]}
{"id": "C30", "title": "Accepted files are internally consistent", "statement": "If XB_reader accepts a file, every reference stored anywhere in the accepted document points inside the file, so that no later API call reads outside the mapping.", "quantifier": "every byte string offered as a file", "why_tests_cant": "arbitrary hostile bytes", "anchors": ["src/bin_xml.cpp:XML_Item::Check", "src/bin_xml.cpp:XB_reader::Initialize"]}
{"id": "C31", "title": "Appended elements are all visible, in order", "statement": "After any number of appends to a document ending with the append marker, iterating the children of the marked node returns its original children followed by all appended elements, in the order of appending.", "quantifier": "every document, every sequence of appended elements", "why_tests_cant": "unbounded histories of appends, alignment of every previous length", "anchors": ["src/bin_xml_creator.cpp:Append", "src/bin_xml.cpp:XML_Item::getNextChild"]}
{"id": "C32", "title": "A torn append never corrupts the visible document", "statement": "If an append is cut off after any number of bytes, a reader sees exactly the elements whose bytes are completely present; no partial element is returned.", "quantifier": "every crash point in every append of every history", "why_tests_cant": "every byte position is a crash point", "anchors": ["src/bin_xml_creator.cpp:Append", "src/bin_xml.cpp:XML_Item::getNextChild"]}
{"id": "C33", "title": "Packing preserves the document", "statement": "The packed document, read back with shared sub-trees expanded, is the same tree as the source document, and shared references always point backwards.", "quantifier": "every document tree", "why_tests_cant": "all trees and all patterns of repeated sub-trees", "anchors": ["src/bin_xml_packer.cpp:MarkReferences", "src/bin_xml_packer.cpp:PackNode"]}
{"id": "C34", "title": "Packing shares exactly the equal sub-trees", "statement": "In a packed file two equal sub-trees of the source are stored once; packing never makes the list of nodes longer than the source.", "quantifier": "every document tree", "why_tests_cant": "all trees", "anchors": ["src/bin_xml_packer.cpp:MarkReferences", "src/bin_xml_packer.cpp:PackNode"]}
{"id": "C35", "title": "Pool allocation hands out disjoint aligned memory", "statement": "Every successful allocation in a writable pool is 4-byte (8-byte) aligned, lies within the pool, is disjoint from everything allocated before, and a failed allocation changes nothing.", "quantifier": "every sequence of allocation requests", "why_tests_cant": "unbounded request sequences and sizes", "anchors": ["src/bin_write_plugin.cpp:BW_pool::allocate", "src/bin_write_plugin.cpp:BW_pool::allocate8"]}
{"id": "C36", "title": "Children form the list built by the calls", "statement": "After any sequence of add/join/remove/replace, enumerating children forwards gives exactly the list a sequence of list operations would give, and enumerating backwards gives its reverse.", "quantifier": "every sequence of structural operations", "why_tests_cant": "unbounded operation histories on circular lists", "anchors": ["src/bin_write_plugin.cpp:BW_element::add", "src/bin_write_plugin.cpp:BW_element::join", "src/bin_write_plugin.cpp:BW_element::remove", "src/bin_write_plugin.cpp:BW_element::NextChild", "src/bin_write_plugin.cpp:BW_element::PrevChild"]}
{"id": "C37", "title": "Attribute reads return the last write", "statement": "After any history of attribute writes on an element, reading an attribute returns the value of the last write with that id, and writes to one id never disturb others.", "quantifier": "every history of attribute writes", "why_tests_cant": "unbounded histories", "anchors": ["src/bin_write_plugin.cpp:BW_element::attrInt32", "src/bin_write_plugin.cpp:BW_element::attrGet", "src/bin_write_plugin.cpp:BW_element::findAttr"]}
{"id": "C38", "title": "Registered names resolve both ways in a writable pool", "statement": "After registering n tags, the name of each id is the registered one and looking the name up gives the id.", "quantifier": "every sequence of registrations up to the 32K id space", "why_tests_cant": "the failure starts at id 128", "anchors": ["src/bin_write_plugin.cpp:BW_symbol_table_16B::getByName", "src/bin_write_plugin.cpp:BW_symbol_table_16B::getName", "src/bin_write_plugin.cpp:BW_plugin::registerTag"]}
{"id": "C39", "title": "Clear drops the data and keeps the dictionary", "statement": "After Clear, no element is reachable, the dictionary is unchanged, and the following operations behave as on a fresh pool with the same dictionary.", "quantifier": "every history before Clear", "why_tests_cant": "unbounded histories", "anchors": ["src/bin_write_plugin.cpp:BW_plugin::Clear"]}
{"id": "C40", "title": "Registry of writable documents is a set of live plugins", "statement": "After any sequence of registrations and unregistrations, the registry lists exactly the plugins registered and not unregistered, in order.", "quantifier": "every sequence of register/unregister", "why_tests_cant": "unbounded sequences; failure needs an unregister from the middle", "anchors": ["src/bin_write_plugin.cpp:BW_plugins::registerPlugin", "src/bin_write_plugin.cpp:BW_plugins::unregisterPlugin"]}
{"id": "C41", "title": "JSON tokens are counted consistently", "statement": "For every text, the number of tokens reported by the counting pass of the JSON tokenizer is the number filled by the second pass whenever that pass succeeds, and the second pass never fails for lack of tokens.", "quantifier": "every text", "why_tests_cant": "all texts", "anchors": ["src/jsmn/jsmn.c:jsmn_parse"]}
{"id": "C42", "title": "JSON token spans are nested inside the text", "statement": "Every token produced by the tokenizer spans a non-empty-bounded range inside the text, its parent is an earlier token, and containers enclose their members.", "quantifier": "every text accepted", "why_tests_cant": "all texts and nesting depths", "anchors": ["src/jsmn/jsmn.c:jsmn_parse", "src/jsmn/jsmn.c:jsmn_parse_string", "src/jsmn/jsmn.c:jsmn_parse_primitive"]}
{"id": "C43", "title": "JSON documents are traversed completely", "statement": "For the token array of any JSON value the total_size computed for a token is the number of tokens in its sub-tree and ForAllChildren visits every member exactly once in order.", "quantifier": "every JSON value of any size and depth", "why_tests_cant": "all documents", "anchors": ["src/bin_json_plugin.cpp:jsmn_prepare_total_size", "src/bin_json_plugin.cpp:Bin_json_plugin::ForAllChildren"]}
{"id": "C44", "title": "Conversion buffer is large enough", "statement": "Converting a source file never writes beyond the buffer allocated for the result.", "quantifier": "every source document", "why_tests_cant": "the failing documents are large and made of tiny elements", "anchors": ["src/bin_xml_creator.cpp:Make_xb", "src/bin_xml_creator.cpp:WriteNode"]}
{"id": "C45", "title": "Reserved names are unambiguous", "statement": "Every reserved tag id and attribute id has its own name, different ids have different names, and ids outside the reserved range are reported as unknown.", "quantifier": "all 16-bit ids", "why_tests_cant": "65536 ids", "anchors": ["src/bin_xml.cpp:XTNR2str", "src/bin_xml.cpp:XPNR2str"]}
{"id": "C46", "title": "Parent directories are all created", "statement": "force_directory attempts to create every proper parent directory of the path in order from the outermost, stops at the first real failure and reports success exactly if none occurred.", "quantifier": "every path and every behaviour of mkdir", "why_tests_cant": "all paths and failure patterns", "anchors": ["src/files.cpp:force_directory"]}
{"id": "C47", "title": "Numeric scanners accept exactly numbers", "statement": "ScanInt, ScanInt64 and ScanUInt64 succeed exactly when the text starts with an (optionally signed) digit, consume the maximal run of digits, and return its value when representable.", "quantifier": "every text", "why_tests_cant": "infinite texts", "anchors": ["src/utils.cpp:ScanInt", "src/utils.cpp:ScanInt64", "src/utils.cpp:ScanUInt64"]}
{"id": "C48", "title": "Temporary text buffers are big enough", "statement": "XBT_Buffer always returns memory of at least the requested size, reusing memory only when it is large enough.", "quantifier": "every history of requests", "why_tests_cant": "unbounded histories and the ring of reusable buffers", "anchors": ["src/bin_xml_types.cpp:XBT_Buffer"]}
{"id": "C49", "title": "Version strings order like versions", "statement": "GetVersion maps dotted version texts to integers so that comparing the integers compares the versions component by component.", "quantifier": "every pair of version texts with components up to 255", "why_tests_cant": "2^64 pairs", "anchors": ["src/utils.cpp:GetVersion"]}
{"id": "C50", "title": "Bounded concatenation", "statement": "StrWrite copies at most the room available, never writes past the destination limit, always leaves the destination terminated, and reports whether everything was copied.", "quantifier": "every source, destination and limits", "why_tests_cant": "all relations of lengths and limits", "anchors": ["src/utils.cpp:StrWrite"]}
{"id": "C51", "title": "Identifiers made from arbitrary text are valid", "statement": "MakeIdent returns text consisting only of identifier characters, never starting with a digit, and leaves valid identifiers unchanged.", "quantifier": "every text", "why_tests_cant": "infinite texts", "anchors": ["src/utils.cpp:MakeIdent", "src/utils.cpp:GetIdentLen"]}
{"id": "C52", "title": "First matching child is found", "statement": "Searching a child by an attribute value returns the first child in document order that has it, and nothing if none has.", "quantifier": "every list of children and every key", "why_tests_cant": "unbounded lists", "anchors": ["src/bin_write_plugin.cpp:BW_element::findChildByParam"]}
{"id": "C53", "title": "Deep copy reproduces the tree", "statement": "CopyAll into a writable pool reproduces names, attributes, values and children order of the source tree.", "quantifier": "every source tree", "why_tests_cant": "infinite trees", "anchors": ["src/bin_write_plugin.cpp:BW_plugin::CopyAll"]}
{"id": "C54", "title": "Textual dump is well formed", "statement": "Printing any element tree produces matching open and close tags, properly nested, containing each element exactly once in document order.", "quantifier": "every tree", "why_tests_cant": "infinite trees", "anchors": ["src/bin_xml.cpp:XML_Item::write"]}
{"id": "C55", "title": "The text of a value does not depend on earlier conversions", "statement": "XBT_ToString returns exactly the text of the given value, whatever values were converted before it in the same program.", "quantifier": "every history of conversions and every value", "why_tests_cant": "The internal buffers are reused only after 64 calls and keep old characters, so a test that starts fresh or compares few values never sees the interaction.", "anchors": ["src/bin_xml_types.cpp:XBT_ToString", "src/bin_xml_types.cpp:XBT_ToStringChunk"]}
{"id": "C56", "title": "Returned texts stay valid for the next 63 conversions", "statement": "The text returned by XBT_ToString is not changed by up to 63 further conversions of any values.", "quantifier": "every state, every value and every sequence of at most 63 further conversions", "why_tests_cant": "Tests call the function a few times with a few types; the claim is about every interleaving of types and positions of the rotating index.", "anchors": ["src/bin_xml_types.cpp:XBT_ToString"]}
{"id": "C57", "title": "Millisecond timestamps round trip through text", "statement": "For every millisecond timestamp the text produced by UnixTime642Str is the date, time of day and milliseconds of that moment, and ScanUnixTime64msec maps it back to the same timestamp.", "quantifier": "every timestamp from 1970-01-01 00:00:00.000 to 9999-12-31 23:59:59.999", "why_tests_cant": "there are 2.5e14 timestamps; failing ones are one day per leap year and everything after 2106", "anchors": ["src/utils.cpp:UnixTime642Str", "src/utils.cpp:ScanUnixTime64msec"]}
{"id": "C58", "title": "The printed text of a stored value converts back to the stored value", "statement": "For every type of fixed size and every stored value of it, the text XBT_ToStringChunk prints is converted by XBT_FromString of the same type into exactly the same stored bytes.", "quantifier": "every type of fixed size, every stored value, every write position", "why_tests_cant": "The two functions choose the format by the type independently of each other; only trying every value of every type would show that the pairs fit (decimals, blanks before the hour, signs, leap days).", "anchors": ["src/bin_xml_types.cpp:XBT_ToStringChunk", "src/bin_xml_types.cpp:XBT_FromString"]}
{"id": "C59", "title": "JSON elements are named by their keys", "statement": "In every opened JSON document the name of a member of an object is its key, the name of an element of an array under a key is the key without the final s, without the final List, or with Item appended, an element of an array inside an array has a fixed name and an element of a top level array has none.", "quantifier": "every JSON document of any size and depth, every element", "why_tests_cant": "all documents, keys and nestings", "anchors": ["src/bin_json_plugin.cpp:Bin_json_plugin::getNodeName"]}
{"id": "C60", "title": "Opening a JSON file is safe", "statement": "Opening any file as JSON either succeeds or fails, and never reads tokens that do not exist.", "quantifier": "every content of the file", "why_tests_cant": "all contents", "anchors": ["src/bin_json_plugin.cpp:Bin_json_plugin::Initialize", "src/bin_json_plugin.cpp:jsmn_prepare_total_size"]}
{"id": "C61", "title": "New elements hold the given value", "statement": "In a writable document, after any history, a call that makes an element with a value (text, block, number, time, digest, GUID) and returns one has made a new detached element with the given identification and the type of its symbol, reading it gives exactly the given value, and everything else in the document is as it was; a call that returns a null pointer changes nothing; a value of the type of the symbol is accepted when there is room.", "quantifier": "every history of calls, every symbol table, every identification, every value", "why_tests_cant": "all histories, all values and all types of symbols", "anchors": ["src/bin_write_plugin.cpp:BW_plugin::tagStr", "src/bin_write_plugin.cpp:BW_plugin::tagBLOB", "src/bin_write_plugin.cpp:BW_plugin::tagInt32", "src/bin_write_plugin.cpp:BW_plugin::tagTime64"]}
{"id": "C62", "title": "Setting a child is an assignment", "statement": "In a writable document, after any history, a call that sets the value of a child with a given identification changes the first child with that identification, or appends one if there is none: enumeration and reading then show the new value at that place and everything else as it was, the returned element is that child, and setting twice gives the second value.", "quantifier": "every history of calls, every element, every identification, every value", "why_tests_cant": "all histories and all values, with any children before and after", "anchors": ["src/bin_write_plugin.cpp:BW_element::tagSetInt32", "src/bin_write_plugin.cpp:BW_element::tagSetString", "src/bin_write_plugin.cpp:BW_element::tagSetTime", "src/bin_write_plugin.cpp:BW_element::tagSetSHA1"]}
{"id": "C63", "title": "Going through a writable document shows its tree", "statement": "After any history of calls on a writable document, the iteration functions of the plugin call their callback for exactly the children, the attributes, or all elements of a tree, each once and in document order with the right depth, and the name, identification, type and value they report are those of the element; the symbols are reported with their names and types.", "quantifier": "every history of calls, every tree in the document, every element", "why_tests_cant": "all shapes of trees, all histories that built them", "anchors": ["src/bin_write_plugin.cpp:BW_plugin::ForAllChildrenRecursively", "src/bin_write_plugin.cpp:BW_plugin::ForAllChildren", "src/bin_write_plugin.cpp:BW_plugin::ForAllBinParams", "src/bin_write_plugin.cpp:BW_plugin::getNodeBinValue", "src/bin_write_plugin.cpp:BW_plugin::getSymbol"]}
{"id": "C64", "title": "A writable document written to a file reads as the document", "statement": "Making a binary file from a writable document gives, whatever calls built the document, a file that the reader accepts and whose root element shows the same names, values, attributes and children in the same order.", "quantifier": "every history of calls, every tree in the document, every value", "why_tests_cant": "all documents, whatever their shape, symbols and values", "anchors": ["src/bin_xml_creator.cpp:Bin_xml_creator::Make_xb", "src/bin_xml_creator.cpp:Bin_xml_creator::CopySymbolTable", "src/bin_xml_creator.cpp:Bin_xml_creator::XStoreBinParamsEvent", "src/bin_write_plugin.cpp:BW_plugin::ForAllBinParams"]}
{"id": "C65", "title": "A closed document can be opened again and is the same", "statement": "After any history of calls, opening the file of a writable document again succeeds and gives the same document: same elements, order, values, symbols and root; the registrations made afterwards are only checked, succeed exactly for known symbols, and allRegistered tells whether all of them did; a file that is no writable document is refused; with the flag to create anew the document is empty.", "quantifier": "every history of calls, every size asked for, every symbol", "why_tests_cant": "all histories before the file is closed, all following registrations", "anchors": ["src/bin_write_plugin.cpp:BW_plugin::Initialize", "src/bin_write_plugin.cpp:BW_plugin::CheckExistingFile", "src/bin_write_plugin.cpp:BW_plugin::InitEmptyFile", "src/bin_write_plugin.cpp:BW_symbol_table_16B::check", "src/bin_write_plugin.cpp:BW_plugin::registerTag", "src/bin_write_plugin.cpp:BW_plugin::allRegistered"]}
{"id": "C66", "title": "Symbols can be registered with chosen identifications", "statement": "registerTag and registerAttr with an identification make the symbol known under that identification and return true.", "quantifier": "every history of calls, every identification, name and type", "why_tests_cant": "all histories and identifications", "anchors": ["src/bin_write_plugin.cpp:BW_plugin::registerTag", "src/bin_write_plugin.cpp:BW_plugin::registerAttr"]}
{"id": "C67", "title": "The type of a symbol can be changed to a wider one", "statement": "alterTag and alterAttr succeed exactly when the symbol is known and its type can be converted to the new type; then asking for the type gives the new one and nothing else changes; otherwise nothing changes at all.", "quantifier": "every history of calls, every identification and type", "why_tests_cant": "all histories, all positions of the symbol, with and without tables", "anchors": ["src/bin_write_plugin.cpp:BW_plugin::alterTag", "src/bin_write_plugin.cpp:BW_plugin::alterAttr", "src/bin_write_plugin.cpp:BW_symbol_table_16B::getType"]}
{"id": "C68", "title": "Setting the text of an element changes that text and nothing else", "statement": "setStr on a child that holds a text returns whether the new text differs from the old one; afterwards reading the child gives the new text, whatever the lengths are, the child has the same place, name, attributes and children, and nothing else in the document has changed.", "quantifier": "every history of calls, every child that holds a text, every new text", "why_tests_cant": "all histories, positions and lengths, with and without enough room for the new text", "anchors": ["src/bin_write_plugin.cpp:BW_element::setStr"]}
{"id": "C69", "title": "A process killed in a call leaves a file that opens and shows the document before or after the call", "statement": "The file of a writable document is mapped, so a process that is killed leaves all the stores it has made in it. At whatever point of a call that changes the document the process is killed, the file can be opened again and shows the document as it was before the call or as it is after it (while a text or blob is copied in place, only that value may be a mixture), and later calls on it work.", "quantifier": "every history of calls, every call, every store within it at which the process may be killed", "why_tests_cant": "every crash point of every call after every history", "anchors": ["src/bin_write_plugin.cpp:BW_element::join", "src/bin_write_plugin.cpp:BW_element::add", "src/bin_write_plugin.cpp:BW_element::remove", "src/bin_write_plugin.cpp:BW_element::replace", "src/bin_write_plugin.cpp:BW_pool::new_element", "src/bin_write_plugin.cpp:BW_plugin::makeSpace", "src/bin_write_plugin.cpp:BW_plugin::registerTag", "src/bin_write_plugin.cpp:BW_plugin::CheckExistingFile"]}
{"id": "C70", "title": "Elements are identified by their key attributes", "statement": "EqualKeys tells whether an element of a writable document has the same key attributes as an item of a file: for every attribute that is a key either both have it, with the same value, or neither has it; other attributes do not matter. CopyKeys into an element without attributes and children makes its keys equal to those of the item and changes nothing else.", "quantifier": "every history of calls, every element, every item of every file, every choice of keys", "why_tests_cant": "all sets of attributes in any order, with texts that are converted, after all histories", "anchors": ["src/bin_write_plugin.cpp:BW_element::EqualKeys", "src/bin_write_plugin.cpp:BW_element::CopyKeys", "src/bin_xml_types.cpp:XBT_Equal"]}
{"id": "C71", "title": "A path of items of a file leads to one element of the document", "statement": "CopyPath and CopyPathOnly follow the path of items from the root of the document through the children with the same tag and keys and make the elements that are missing, each with the keys of its item, the last one as a copy of the item (CopyPath) or with its keys (CopyPathOnly). The last element of the path is returned, nothing else changes, and the same call again returns the same element and changes nothing. A path whose first item does not fit the root is refused and changes nothing.", "quantifier": "every history of calls, every file and path of items of any length, every choice of keys", "why_tests_cant": "all lengths of paths, all documents in which a part of the path exists, repeated calls", "anchors": ["src/bin_write_plugin.cpp:BW_plugin::CopyPath", "src/bin_write_plugin.cpp:BW_plugin::CopyPathOnly", "src/bin_write_plugin.cpp:BW_plugin::CopyPath_"]}
{"id": "C72", "title": "The integer getters give the stored integers", "statement": "For an item or an attribute of a file whose value is an integer, or a text that starts with one, getInt, getIntPtr and getInt64Ptr give that integer; for a value of another type they say that there is none. What was asked for before does not matter, and an integer once got is not changed by later calls.", "quantifier": "every file, every item and attribute, every history of earlier and later calls for any files", "why_tests_cant": "results kept in variables of the library make a call depend on all calls of the process before it; all values of 32 and 64 bits", "anchors": ["src/bin_xml.cpp:XML_Param_Description::getInt32Ptr", "src/bin_xml.cpp:XML_Param_Description::getInt64Ptr", "src/bin_xml.cpp:XML_Item::getInt", "src/bin_xml.cpp:XML_Item::getIntPtr", "src/bin_xml.cpp:XML_Item::getInt64Ptr", "include/binary_xml/bin_xml.h:XML_Param_Description::getInt"]}
{"id": "C73", "title": "All items below an item are visited once, in order", "statement": "ForAllChildrenRecursively calls the function once for each item below an item, with its depth, each before the items below it; the PostOrder versions call it after the items below; the version with an array gives the items above, from the top, in the array, as far as the 1024 places reach.", "quantifier": "every tree of items of any depth and width", "why_tests_cant": "all shapes of trees, trees deeper than the array", "anchors": ["src/bin_xml.cpp:XML_Item::ForAllChildrenRecursively", "src/bin_xml.cpp:XML_Item::ForAllChildrenRecursively_PostOrder", "src/bin_xml.cpp:XML_Item::ForAllChildrenRecursively_PostOrderA"]}
{"id": "C74", "title": "Making a writable document of a text source stores its whole tree", "statement": "Make_xbw of a text source gives a document whose root shows the tree of the source: every element and attribute in order, its identification the position of its name in the symbol tables of the source, its value the text converted to the type that all uses of the name allow; the document knows the names of the symbols.", "quantifier": "every source tree, every earlier content of the file, every size of the source", "why_tests_cant": "all trees, names and texts; the types depend on all values of a name in the source", "anchors": ["src/bin_xml_creator.cpp:Bin_xml_creator::Make_xbw", "src/bin_xml_creator.cpp:Bin_xml_creator::XStore2XBWEvent", "src/bin_xml_types.cpp:XBT_SizeFromString"]}
{"id": "C75", "title": "The XML source shows the elements, attributes and texts of the parsed document", "statement": "For a document parsed by libxml2 the XML source gives each element with its name, its text without the white space at its beginning, its namespace and its attributes in order, and its child elements in order; every element is visited once with its depth; a file made of it shows the same tree.", "quantifier": "every parsed document, with any nesting of elements, texts, CDATA sections and comments", "why_tests_cant": "all shapes of documents and all texts; where the text is not the first node it is lost", "anchors": ["src/bin_xml_plugin.cpp:Bin_xml_plugin::getNodeValue", "src/bin_xml_plugin.cpp:Bin_xml_plugin::ForAllChildren", "src/bin_xml_plugin.cpp:Bin_xml_plugin::ForAllChildrenRecursively", "src/bin_xml_plugin.cpp:Bin_xml_plugin::ForAllParams"]}
{"id": "C76", "title": "A document printed as XML is read as the document", "statement": "Writing a source to a stream with << gives well formed XML in which a reader finds exactly the tree of the source: each element with its name, its attributes in order with their values, its children in order and its text. Texts and values of attributes are escaped so that any text can be printed.", "quantifier": "every writable document after any history of calls, with any depth, names, values of any type and any contents of uninitialised buffers; every text source", "why_tests_cant": "all trees, texts with any characters and values longer than the buffer of 4097 bytes", "anchors": ["src/bin_xml_creator.cpp:operator<<", "src/bin_xml_creator.cpp:Bin_src_plugin::s_On2Stream", "src/bin_xml_creator.cpp:Bin_src_plugin::s_OnBinParam2Stream", "src/bin_xml_creator.cpp:Bin_src_plugin::s_OnParam2Stream", "src/bin_xml_types.cpp:XBT_ToXMLStream"]}
{"id": "C77", "title": "A conversion reads and makes the files it is asked for", "statement": "The kind of a source is decided by the extension of its name alone. A conversion makes a file of the kind that is asked for, whose name is the given one with the extension of that kind, and never overwrites its source. GetXB makes base.xb of base.xml, base.xsd and base.wsdl, gives the name of the file it made and refuses other names.", "quantifier": "every name of a file (any number of dots and directories, any length below the limit of the system) and every target", "why_tests_cant": "all names: extensions are found by the last dot and names are made by counting characters", "anchors": ["src/bin_xml_packer.cpp:Bin_src_plugin_selector", "src/bin_xml_packer.cpp:Bin_xml_packer::GetXB", "src/bin_xml_packer.cpp:Bin_xml_packer::Convert", "src/bin_xml_creator.cpp:Bin_xml_creator::Bin_xml_creator", "src/bin_xml_creator.cpp:Bin_xml_creator::DoAll"]}
{"id": "C78", "title": "Texts are scanned up to where they are said to be", "statement": "EatEnd removes a given end exactly from texts that end with it. Scan answers true exactly for a text that continues, after blanks, with the given one, and leaves the cursor behind it. SkipLine and Go leave the cursor behind the next line end or separator, or at the end of the text, and tell which; a loop of them finds every field once. ScanStrW stays in the text for every separator. ScanUInt64Hex gives the value of all the hexadecimal digits. GetInt gives the decimal or hexadecimal number at the beginning of a text if it fits an int, and its null value exactly if there is no number.", "quantifier": "every text, separator, size of buffer and number of fields", "why_tests_cant": "all texts; numbers near the limits of int are undefined behaviour or are taken for a missing number", "anchors": ["src/utils.cpp:EatEnd", "src/utils.cpp:Scan", "src/utils.cpp:SkipLine", "src/utils.cpp:Go", "src/utils.cpp:ScanStrW", "src/utils.cpp:ScanUInt64Hex", "src/utils.cpp:GetInt"]}
{"id": "C79", "title": "Files and directories are read completely", "statement": "ReadFile gives the content of a file with a terminating zero and its size, or nothing. file_get_contents gives the beginning of the file and zeros behind it. file_exists, file_getsize, file_gettime and FileGetSize tell what the system tells. A file written with success holds exactly the text. scan_dir calls its function once for each entry but . and .., in order, until it answers false. No descriptor stays open afterwards.", "quantifier": "every content and size of a file, every list of entries, every function of the caller and every answer of the system calls (short reads, errors, files that grow)", "why_tests_cant": "all answers of the system, in every combination", "anchors": ["src/utils.cpp:ReadFile", "src/utils.cpp:WriteToFile", "src/utils.cpp:ShareFileRW", "src/utils.cpp:CloseSharedFile", "src/utils.cpp:FileGetSize", "src/files.cpp:file_get_contents", "src/files.cpp:file_exists", "src/files.cpp:scan_dir"]}
{"id": "C80", "title": "An element changes its type only to one of the same form", "statement": "Changing the type of an element succeeds exactly if the values of the two types have the same form, changes nothing else, and leaves the bytes of the value as they are; otherwise nothing changes. An element made of a text has the value the text stands for. The check of a table of symbols accepts the tables that calls of the library made.", "quantifier": "every history of a writable document, every element, every pair of types, every text", "why_tests_cant": "all histories, all pairs of types and all texts", "anchors": ["src/bin_write_plugin.cpp:BW_element::retype", "src/bin_write_plugin.cpp:BW_pool::tagAny", "src/bin_write_plugin.cpp:BW_pool::checkTable"]}
{"id": "C81", "title": "A printed source is a readable document", "statement": "Bin_src_plugin::print writes well formed XML in which a reader finds exactly the elements of the source: each with its name, its attributes in order with their values, its children in order and its text.", "quantifier": "every source: trees of any depth and width, with any names, attributes and values", "why_tests_cant": "all trees and all texts", "anchors": ["src/bin_xml_creator.cpp:Bin_src_plugin::print", "src/bin_xml_creator.cpp:Bin_src_plugin::s_PrintElement", "src/bin_xml_creator.cpp:Bin_src_plugin::s_PrintParam"]}
{"id": "C82", "title": "The command line tools treat every file they are given", "statement": "2xb and 2xbw convert every file named on the command line and tell a failure by their exit code; --test answers whether the conversions of the library are right; xb2xml prints, for the file of any document, its symbols in a comment and then XML in which a reader finds the document, and changes no file.", "quantifier": "all lists of arguments, all histories of a document whose file is printed, all files", "why_tests_cant": "any number of arguments, any document, any small or foreign file", "anchors": ["src/tests/2xb.cpp:main", "src/tests/2xbw.cpp:main", "src/tests/xb2xml.cpp:main", "src/bin_xml_types.cpp:XBT_Test", "include/binary_xml/bin_xml_types.h:XBT2STR"]}
{"id": "C83", "title": "Batches of elements are appended to the file made from a document, in order", "statement": "When a document whose root has the append marker et-tecera as its last child has been converted to a file, every later call of Write appends the elements of the given list to that file: after any number of calls the file opens, and iterating over the children of its root gives the original children and then the elements of all batches in the order of writing, each with the name, value, attributes and children it had when it was written. Write changes nothing else in the document than marking the elements as written.", "quantifier": "all histories of the document before the conversion and before each call, all batches (any number, any lists and trees of elements), all calls", "why_tests_cant": "unbounded numbers of batches, elements and nesting, any state of the document at each call, any contents of the buffer", "anchors": ["src/bin_write_plugin.cpp:BW_plugin::Write", "src/bin_xml_creator.cpp:Bin_xml_creator::Append", "src/bin_xml_creator.cpp:Bin_xml_creator::CopySymbolTable", "src/bin_xml.cpp:XB_reader::getNextChild"]}
{"id": "C84", "title": "Files and mappings are given back", "statement": "Whatever files, mappings and memory an object of the library (reader, JSON source, writable document, creator) takes when it is initialized, with whatever result, it gives back when it is finalized or destroyed, and it gives back nothing else: after any history of making, initializing, using, finalizing and destroying any number of objects in any interleaving, the process still holds what it held before, and besides that only the handles of the objects that are initialized at the moment; when all of them are finalized or destroyed, it holds exactly what it held before.", "quantifier": "all numbers of objects, all histories and interleavings of their calls, all answers of the system calls (also failing ones), all sizes of files", "why_tests_cant": "leaks and wrong releases show only after long histories, after failures of the system at any point, and in interleavings of objects", "anchors": ["src/bin_xml.cpp:XB_reader::Initialize", "src/bin_xml.cpp:XB_reader::Finalize", "src/bin_json_plugin.cpp:Bin_json_plugin::Initialize", "src/bin_json_plugin.cpp:Bin_json_plugin::~Bin_json_plugin", "src/bin_write_plugin.cpp:BW_plugin::Initialize", "src/bin_write_plugin.cpp:BW_plugin::Finalize", "src/bin_write_plugin.cpp:BW_plugin::setMaxPoolSize", "src/bin_xml_creator.cpp:Bin_xml_creator::~Bin_xml_creator", "src/bin_xml_creator.cpp:Bin_xml_creator::Append"]}
{"id": "C85", "title": "Generated numbers do not repeat and are not negative", "statement": "genI64 and genU64 give, in one process, numbers that are different from each other whatever random() returns (also if the source of random numbers is stuck or begins again), and genI64 never gives a negative number.", "quantifier": "every sequence of calls of both functions, all values of random() and every answer of the clock", "why_tests_cant": "a repetition depends on values of random() and the clock that no test meets", "anchors": ["src/utils.cpp:genI64", "src/utils.cpp:genU64", "src/utils.cpp:s_init_base_xor_value"]}
{"id": "C86", "title": "A JSON file converted to .xb reads as the JSON document", "statement": "Converting a JSON file gives a file that the reader accepts, and whose root shows the JSON document: every value of the document is one element, in the order of the text, a member of an object under its key, an element of an array under the name made from the key of the array, a string or primitive with its text as value (with the type it looks like), arrays and objects with their members as children. The result does not depend on the compiler.", "quantifier": "every JSON text (values nested to any depth, any white space, any keys and texts), every name of the file, every content of the buffers, both orders of evaluation of arguments", "why_tests_cant": "documents are unbounded, and a test runs with one compiler and its order of evaluation", "anchors": ["src/bin_json_plugin.cpp:Bin_json_plugin::getNodeName", "src/bin_json_plugin.cpp:Bin_json_plugin::getNodeValue", "src/bin_xml_creator.cpp:Bin_xml_creator::SecondPassEvent", "src/bin_xml_creator.cpp:Bin_xml_creator::Make_xb", "src/bin_xml_creator.cpp:Bin_xml_creator::WriteNode"]}
{"id": "C87", "title": "The texts of a document are read unchanged from its file", "statement": "Converting a document and reading the file gives back the texts: the text of every element and of every attribute, as the library prints it from the stored value, is the text of the source, character by character; an element or attribute without a value has an empty text.", "quantifier": "every document (any tree, names and texts), every size of the source, every content of the buffer before", "why_tests_cant": "texts and trees are unbounded, and whether a text is changed depends on which of the value types it happens to look like (and for attributes on all other values of the same name)", "anchors": ["src/bin_xml.cpp:XML_Item::getStringChunk", "src/bin_xml.cpp:XML_Param_Description::getStringChunk", "src/bin_xml_types.cpp:XBT_ToStringChunk", "src/bin_xml_types.cpp:XBT_Detect", "src/bin_xml_types.cpp:XBT_FromString", "src/bin_xml_creator.cpp:Bin_xml_creator::Make_xb"]}
{"id": "C88", "title": "getString gives the texts of a document", "statement": "Converting a document and asking every element and attribute of the file for its text with getString gives the texts of the document (a null pointer exactly for elements and attributes without a value), whatever texts the program has asked for before.", "quantifier": "every document (any tree, names and texts), every history of earlier getString calls (values of any types), every size of the source", "why_tests_cant": "the answer depends on what earlier calls left in one of 64 shared buffers, so a call that is right in one history may be wrong in another; trees, texts and histories are unbounded", "anchors": ["src/bin_xml.cpp:XML_Item::getString", "src/bin_xml.cpp:XML_Param_Description::getString", "src/bin_xml_types.cpp:XBT_ToString", "src/bin_xml_types.cpp:XBT_ToStringChunk", "src/bin_xml_creator.cpp:Bin_xml_creator::Make_xb"]}
{"id": "C89", "title": "The size of the data of a document", "statement": "At every moment of the life of a writable document getDataSize answers the number of bytes taken by its elements and attributes and changes nothing: it is zero when there are none, and each element made adds its size.", "quantifier": "every history of a writable document (elements, values, registrations, Clear, closing and opening, in any order and number), every environment and maximal size", "why_tests_cant": "the answer is computed from the allocator and two tables that every call moves or extends, so it depends on the whole history; histories are unbounded", "anchors": ["src/bin_write_plugin.cpp:BW_plugin::getDataSize", "src/bin_write_plugin.cpp:BW_symbol_table_16B::getNamesSize"]}
