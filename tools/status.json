{
 "C01": {
  "status": "proved",
  "note": "all i32 values, IEEE double arithmetic modelled exactly degrees is exactly the double of IEEE 754 rounding: C01_degrees_exact."
 },
 "C02": {
  "status": "proved",
  "note": "all i32 values; shortest-digits Display and the float grammar are modelled"
 },
 "C03": {
  "status": "partial",
  "note": "range check and nearest unit proved for every finite or infinite double; NaN is accepted as 0 (C03_nan_rejected_fails) Exactly what comes out for every double: C03_exact, with the rounding of IEEE 754 as specification."
 },
 "C04": {
  "status": "proved",
  "note": ""
 },
 "C06": {
  "status": "partial",
  "note": "exact result (mod 2^32) proved for every i64; the claim holds exactly for 0 <= t < 2^32 and fails outside"
 },
 "C07": {
  "status": "proved",
  "note": ""
 },
 "C08": {
  "status": "partial",
  "note": "reflexive and symmetric for all; transitivity fails in general (witness), proved on canonical texts 1970-2106 and all epoch numbers; exact condition for transitivity in C08_eq_trans_iff"
 },
 "C09": {
  "status": "partial",
  "note": "totality, agreement with == and swap law for all; chronological order proved on canonical texts 1970-2106 and all epoch numbers, fails for texts before 1970 compared with epoch numbers; exactly when a text and every number compare chronologically: C09_mixed_iff (the instant is in 1970-2106, any spelling and zone, C09_mixed_partial); texts of different zones: C09_zone_fails"
 },
 "C10": {
  "status": "proved",
  "note": ""
 },
 "C05": {
  "status": "proved",
  "note": "all three node types, any fallible conversions"
 },
 "C11": {
  "status": "proved",
  "note": "all twelve object types, any history of mutators"
 },
 "C12": {
  "status": "partial",
  "note": "proved for distinct tag keys; false with repeated keys (C12_unset_tag_fails); exactly when unset removes the key: C12_unset_tag_iff (the key occurs at most once), what stays otherwise: C12_unset_tag_repeat"
 },
 "C13": {
  "status": "proved",
  "note": "all twelve object types"
 },
 "C14": {
  "status": "proved",
  "note": ""
 },
 "C15": {
  "status": "partial",
  "note": "proved for distinct tag keys; with repeated keys the tag list is deduplicated (C15_conversion_fails); exactly the objects with distinct keys survive: C15_conversion_iff, the others are described by C15_conversion_any"
 },
 "C16": {
  "status": "proved",
  "note": ""
 },
 "C17": {
  "status": "proved",
  "note": "any reader whose object stream ends"
 },
 "C18": {
  "status": "proved",
  "note": ""
 },
 "C19": {
  "status": "proved",
  "note": ""
 },
 "C20": {
  "status": "partial",
  "note": "valid JSON and ascending keys for every object; equal to the tag map for distinct keys, false for repeated keys (C20_json_fails); exactly the objects whose keys have the same first and last value: C20_json_iff"
 },
 "C21": {
  "status": "proved",
  "note": ""
 },
 "C22": {
  "status": "partial",
  "note": "XML writer fully; OSC writer except set_header, which panics in every state (C22_osc_set_header_fails)"
 },
 "C23": {
  "status": "partial",
  "note": "exact output of every history, with any objects, on a working sink (C23_any_history); one document exactly if close is not called and every object has a version (C23_one_document_iff); so false with an explicit close (C23_close_fails, C23_from_iter_fails) and for caught panics (C23_unversioned_fails)"
 },
 "C24": {
  "status": "partial",
  "note": "exact output of every history, with any objects (C24_any_history); one document exactly if every object written before the first close has a version (C24_one_document_iff); so false if an object without version is written and the panic caught (C24_unversioned_fails)"
 },
 "C25": {
  "status": "proved",
  "note": "any writer state, any fault schedule; objects with a version in C25_xml_faults and C25_osc_faults, any object in C25_any_object"
 },
 "C26": {
  "status": "partial",
  "note": "proved for objects with a version, false otherwise (C26_unversioned_fails); exactly when a write panics: C26_no_panic_iff; a closed writer refuses: C26_closed; osmChange: C26_osc_unversioned_fails"
 },
 "C27": {
  "status": "partial",
  "note": "exactly which objects come back (C27_exact): those whose nodes have positions and whose texts have only characters that XML has and that the parser keeps, whatever the map order; every text of XML characters comes back as the parser reports it (C27_texts). False for values with line breaks (C27_newline_fails), characters XML forbids and text timestamps that need escapes (C27_malformed_fails), and timestamps outside u32 (C27_timestamp_iff); exactly when no object is lost: C27_count; a file whose writer was closed before it was dropped gives all objects and then a panic (C27_close_fails); for all histories, with or without close: C27_iff"
 },
 "C28": {
  "status": "partial",
  "note": "as C27, for osmChange documents (C28_exact, C28_texts); for all histories, whenever and however often close is called: C28_iff"
 },
 "C29": {
  "status": "partial",
  "note": "Exactly which headers are given back, for every history and iteration order: C29_iff (keys that are names without colon or in the name space xml, other than xmlns, version and generator; values of characters that XML has and the parser reports as they are). C29_headers_any_partial says that then each appears exactly once with its last value and nothing else appears. Other keys make the document malformed or change other attributes, since keys are not escaped (C29_key_fails)."
 },
 "C30": {
  "status": "partial",
  "note": "Documents in which object elements are not nested in each other (false otherwise, C30_nested_fails), for texts of the XML grammar (C30_text_partial) and for any bytes the parser accepts (C30_every_object_partial, there without two of the attributes that mean something, such as id and x:id, differing only in prefix). Exactly when a loop yields them all: C30_iff. For documents of the grammar with objects inside objects: C30_any says what every call gives, C30_any_iff that a loop yields as many objects as there are elements exactly if nothing is nested and every element is readable. For every well formed document without document type, with name spaces: C30_wellFormed_partial, C30_wellFormed_any, C30_wellFormed_iff (attributes of one element must not differ only in prefix); a text has one tree: C30_one_tree."
 },
 "C31": {
  "status": "partial",
  "note": "All documents, any number of calls, as long as no element has two attributes that differ only in prefix and whose local name is one the reader looks at (id, ref, ...); the reader ignores prefixes, so prefixed attributes can be taken for plain ones (C31_prefix_fails). For every well formed document without document type, with name spaces: C31_wellFormed_partial."
 },
 "C32": {
  "status": "partial",
  "note": "all documents in which object elements are not nested and no element has two attributes that differ only in prefix and whose local name is one the reader looks at (id, ref, ...); what becomes of the content of nested objects is said by C30_any. For every well formed document without document type, with name spaces: C32_wellFormed_partial."
 },
 "C33": {
  "status": "partial",
  "note": "holds for readable objects; false in general: an object without id ends the iteration early (C33_early_end_fails). What a loop yields exactly: C33_loop_partial (the objects before the first unreadable element), and C33_any if objects are nested. For every well formed document without document type, with name spaces: C33_wellFormed_any."
 },
 "C34": {
  "status": "proved",
  "note": "both readers, call by call and over whole streams"
 },
 "C61": {
  "status": "proved",
  "note": ""
 },
 "C62": {
  "status": "proved",
  "note": "C62_iff: the files on which no call panics are exactly the UTF-8 texts of the grammar of well formed documents without document type (Spec/XmlGrammar.lean; name spaces, every XML declaration); C62_malformed: on any other file one call panics, and after it every call gives None; C62_cut: a document cut at any byte either makes a call panic or gives the same answers as the whole document (one root element). Document types, byte order marks and encodings other than UTF-8 are outside the model (it has them as errors), so nothing is said about such files."
 },
 "C50": {
  "status": "proved",
  "note": "all fourteen messages; the encoding is specified from the .proto files; the protobuf library is modelled, not verified"
 },
 "C35": {
  "status": "proved",
  "note": "all accepted blocks, both readers, both builds; members: as far as the shortest of the three lists a relation stores them in"
 },
 "C36": {
  "status": "partial",
  "note": "exact for granularities and offsets that are whole units of 100 nanodegrees and results that fit (C36_formula gives what is computed in all cases, C36_iff exactly when a coordinate is right); false otherwise: granularity below 100 puts every node at the offset (C36_fails)"
 },
 "C37": {
  "status": "partial",
  "note": "exact with the default granularity of 1000, for nodes as long as the sums fit i32; false for ways and relations with any other granularity, which they ignore (C37_ways_fail, C37_ways_iff), and for nodes with other granularities (C37_dense_fails; C37_formula gives what is computed in all cases)"
 },
 "C38": {
  "status": "partial",
  "note": "all blocks that follow the format with keys_vals; a block without keys_vals makes the owned-string reader panic (C38_owned_fails); the shared-string reader silently drops tags with invalid text (C38_shared_fails)"
 },
 "C39": {
  "status": "proved",
  "note": "well formed blocks are shown exactly (C39_well_formed), and in every accepted block each way, relation and node shows its own message (C39_accepted)"
 },
 "C40": {
  "status": "partial",
  "note": "dense nodes and objects that state the flag; a missing flag: the owned-string reader takes it as deleted (C40_owned_fails), the shared-string reader panics (C40_shared_fails)"
 },
 "C41": {
  "status": "proved",
  "note": "all files, both readers; from encoded bytes to objects in C41_written; C41_calls is the form call by call"
 },
 "C42": {
  "status": "proved",
  "note": "any bytes and any cut (C42_any_bytes); exact outcome for files of accepted blocks (C42_cut)"
 },
 "C43": {
  "status": "partial",
  "note": "nodes() without conditions (C43_nodes); ways() and relations() exactly for files in which no group with ways has dense nodes, and no group with relations has dense nodes or ways (C43_iff); false otherwise (C43_fails)"
 },
 "C44": {
  "status": "partial",
  "note": "holds for the kind iterators of the trait, on every reader; false for the inherent methods of the owned-string reader: the filter stays set (C44_fails); what objects() gives after nodes() was dropped at any point is C44_nodes_exact: what is left of the block being read, then only the nodes of later blocks"
 },
 "C45": {
  "status": "proved",
  "note": "any source; also prefixes when one fails (C45_prefix)"
 },
 "C46": {
  "status": "partial",
  "note": "exactly the files whose groups have only their nodes if they have any, and something (C46_iff); false for mixed groups (C46_fails)"
 },
 "C47": {
  "status": "partial",
  "note": "shared-string reader; false for the owned-string reader and the reader of positions, which panic on every uncompressed block (C47_owned_fails)"
 },
 "C48": {
  "status": "partial",
  "note": "shared-string reader; the owned-string reader panics on every block with other than one group (C48_owned_fails)"
 },
 "C49": {
  "status": "partial",
  "note": "C49_exact, C49_exact_positions: exactly the blocks on which the builds agree. All sources (C49_file, C49_positions): equal, or the checked build stops with an overflow after a prefix. The second part of the claim is false for casts with `as`, which both builds truncate silently (C49_cast_fails)"
 },
 "C51": {
  "status": "proved",
  "note": "all three readers, any bytes; for sources that report errors see C63"
 },
 "C63": {
  "status": "partial",
  "note": "exact: a failing source has the same effect as a file that ends there, for every reader and all bytes (C63_exact); errors inside a frame after its length are seen (C63_partial); errors at a block boundary or within the length field are reported as the end, so the claim fails there (C63_fails)"
 },
 "C52": {
  "status": "proved",
  "note": "On sequences of quick-xml events (C52_changesets) and from the bytes of any document of the XML grammar without name spaces (C52_text, and C52_doctype when there is a document type). The statement is stronger than the claim: malformed elements give one error each and do not disturb the others."
 },
 "C53": {
  "status": "proved",
  "note": "On sequences of quick-xml events and from bytes (C53_text, and C53_doctype when there is a document type); only the id attribute has to be well formed."
 },
 "C54": {
  "status": "proved",
  "note": "Ids below 2^32, because a well formed element for ChangesetReader has a u32 id. On events and from bytes (C54_text)."
 },
 "C55": {
  "status": "partial",
  "note": "C55_tags is the full claim for ChangesetTagReader. ChangesetReader returns if and only if the source does not end inside a changeset (C55_partial); otherwise it loops for ever at the end of the file (C55_fails, from bytes C55_text_fails), so the full claim is false of the code."
 },
 "C56": {
  "status": "partial",
  "note": "C56_changesets is the full claim for ChangesetReader. ChangesetTagReader reports an element without id under the id of an earlier one (C56_fails, C56_fails_after_error), so the full claim is false of the code; C56_partial holds for elements with an id, and C56_tags_exact says which pairs come out of any document."
 },
 "C57": {
  "status": "proved",
  "note": "About ChangesetReader, which is what the claim's attributes belong to."
 },
 "C58": {
  "status": "partial",
  "note": "Holds for strings and tags without a percent sign (which is not escaped, C58_fails), ways with a node (C58_way_nodes_fails) and members whose roles have no comma (roles are not escaped, C58_members_fails); otherwise false of the code. src/opl is in the repository but not compiled into the crate. C58_iff, C58_tags_iff and C58_members_iff say exactly which strings, tags and members come back. C58_decode_exact says exactly what the string decoder accepts and what it makes of it."
 },
 "C59": {
  "status": "partial",
  "note": "Exact result of every get after any sets: C59_exact; exactly which sets go through: C59_sets_iff. The claim holds for ids up to the largest one set and coordinates other than the sentinel; false above it, where the store panics (C59_fails_above), for coordinates that equal the sentinel (C59_fails_sentinel), and for ids from 2^61 on in a build without overflow checks, where the position of another node is given (C59_fails_wraps). src/nodestore.rs is not compiled into the crate. C59_buffered, C59_buffered_partial: the same through the BufWriter of the writer, whatever its capacity. C59_killed_partial: what the file has if the process ends between two calls, without the drop: all but the last set, for ids up to the largest one set before it. C59_killed_above, C59_killed_first: the other ids."
 },
 "C60": {
  "status": "partial",
  "note": "For ids below 2^63 and chains without a step of -1 (other than to the first node), C60_iff_partial says exactly which chains come back: those in which a return to the first node is followed by the first node or one far away. Otherwise false of the code (C60_fails_minus_one, C60_fails_return). C60_fails_minus_one_late: the decoder panics for every chain as in C60_partial continued by a step of -1 (other than to the first node) and fewer than eight close nodes. Missing: the other chains with a step of -1, of which some come back by coincidence. C60_encode_panics_iff: exactly which chains, with any ids, the encoder panics for. src/nodechain.rs is not compiled into the crate."
 },
 "C64": {
  "status": "proved",
  "note": "C64_wellFormed: every well formed document without document type, name spaces included; with C62_iff these are the only files. The OSC reader is the same function of events (C34, C62_iff_osc). The grammar allows ]]> in text, and any local part after a colon, in which the parser is taken to be lenient."
 },
 "C65": {
  "status": "partial",
  "note": "C65_both_partial and C65_both_positions_partial say exactly which blocks a reader gets through, in both builds (C65_readable_partial is the case without overflow checks; C65_checked_partial: otherwise it stops with an overflow). The format allows more (C65_*_fails: plain nodes, missing metadata, empty groups)."
 },
 "C66": {
  "status": "proved",
  "note": "exact for every finite f32: the product with 10^7 needs at most 41 bits; infinities are range errors; NaN becomes 0 as in C03 (C66_f32_special)"
 },
 "C67": {
  "status": "proved",
  "note": "C67_syntax characterises the accepted texts; C67_exact, C67_accuracy, C67_accepts_nearest and C67_monotone say what they are read as Exactly what comes out for every decimal text: C67_rounding."
 },
 "C68": {
  "status": "partial",
  "note": "Holds if user name and roles are written without escapes (they are not decoded, C68_user_fails) and ways and relations are not empty (C68_empty_way_fails); an error looks like the end of the file (C68_stream_fails) and a short line panics (C68_short_line_fails). White space around lines is ignored (C68_white_space_partial), bad coordinates are refused (C68_bad_coordinate), source errors and bad UTF-8 look like the end (C68_source_errors). src/opl is not compiled into the crate. A bad escape in a tag is refused (C68_bad_tag)."
 },
 "C69": {
  "status": "proved",
  "note": "SQLite is modelled by its atomic commit: what is found after a crash is what was committed last. A changeset element with an end tag but without tags gets a row too. C69_only, C69_unopened, C69_disk, C69_program_iff and C69_program_ends start from the arguments of the program and the files on the disk."
 },
 "C70": {
  "status": "proved",
  "note": "Order among keys with the same count: later in the alphabet first. Progress messages are not modelled."
 },
 "C71": {
  "status": "proved",
  "note": "C71_i64, C71_u32, C71_u64 characterise the number parsers all text readers use; C71_xml, C71_nd, C71_member, C71_changesets and C71_useless apply them to what the readers show. Specification in Spec/Integer.lean."
 },
 "C72": {
  "status": "proved",
  "note": "all i32 values; Debug for f64 without width and precision is modelled in Lib/Float64Debug.lean"
 },
 "C73": {
  "status": "proved",
  "note": "All fourteen messages of both generated copies. Unknown fields kept by the library are not modelled; sizes of 4 GiB and more are excluded from the first theorem (the cached size is a u32), and anything above 2 GiB is refused by the library."
 },
 "C74": {
  "status": "proved",
  "note": "Exact acceptance of JSON for each of the four types, exact form of what is written, roundtrip and injectivity. serde_json is modelled (Lib/SerdeJson), JSON is specified by RFC 8259 relations (Spec/JsonText)."
 },
 "C75": {
  "status": "partial",
  "note": "Proved of both PBF readers (whatever follows the frames, unique position). Fails of both writers, whose into_inner always panics with todo!; the panic still leaves a complete document behind on a reliable sink. Fails of the XML and change readers: inner() always panics (todo!), and into_inner drops what the BufReader has read ahead, which for a source of up to 8 KiB that gives what it is asked for is everything (C75_xml_back_fails). The same goes for ChangesetReader, whose into_inner and get_ref give the stream without what is in the buffer (C75_changesets_back_fails); how far they read is C89."
 },
 "C76": {
  "status": "partial",
  "note": "Exactly which message every refused text gets, and the printed number is read back as the number in the error (every double is printed so that it is read back). The number is never the one that was given but its whole number of units (C76_number_fails, C76_number_partial). C76_digits gives the message for every finite number digit by digit (shortest and nearest decimal)."
 },
 "C77": {
  "status": "partial",
  "note": "Every object a PBF reader gives is complete (C77_complete), and copying never fails at any call. Exactly which files are copied whole, as == compares objects and timestamps, and exactly which keep the number of objects, for both readers and both writers. Other files lose objects without an error from the writer (C77_fails)."
 },
 "C78": {
  "status": "proved",
  "note": "All four readers, for all interleavings of hint calls with next, inner and the filters of nodes(), ways() and relations()."
 },
 "C79": {
  "status": "partial",
  "note": "Proved for all XML and OSC files and both writers, for objects with versions and timestamps without quotes, < and &: never fails, and exactly which files keep their objects; a rewritten file is a fixed point. C79_read needs no such hypotheses. The code violates the rest: the writer panics on unversioned objects (C79_unversioned_fails), a node with an unreadable position cuts the new file short (C79_misplaced_fails), and a quote in a timestamp changes the object (C79_quoted_fails)."
 },
 "C80": {
  "status": "partial",
  "note": "Proved exactly for ways, relations and owned nodes of all families and for shared nodes with a tag; reflexive, symmetric, preserved by every mutator and by conversion; equal objects with the same timestamp representation are identical; transitive within one timestamp format. The code violates the rest: a shared node without tags differs from one that shows the same (C80_untagged_fails, C80_unset_fails, C80_pbf_fails), and == is not transitive across timestamp formats (C80_trans_fails)."
 },
 "C81": {
  "status": "proved",
  "note": "For every implementation of Read described by a relation to the bytes and errors to come (any portions, interruptions, errors; finitely many bytes, an end that stays the end), all three PBF readers give, for any number of calls, the results they give on that list of bytes, and leave the rest; BufReader of any size in front is such a source. The XML and change readers, which pull bytes through their BufReader, likewise (C81_xml, C81_osc), and so do ChangesetReader and ChangesetTagReader (C81_changesets, C81_changeset_tags: exactly the same answers, and a call that never returns over one source returns over none); how far they have read is C89. Whole loops: C81_xml_loop, C81_pbf_loop; writing and reading back: C110. C81_take_delivers, C81_take_pbf, C81_take_positions, C81_take_xml, C81_take_changesets: a file inside a longer stream, limited to its length with Read::take, is read like the file alone; C81_take_keeps, C81_take_left: nothing of what follows it is read."
 },
 "C82": {
  "status": "proved",
  "note": "For every implementation of Write and every way of write! to cut its text, a history of calls with the drop at its end gives the answers and bytes of the run on a sink with some schedule of faults, so C23-C26 speak of every sink; without faults if the sink never fails. BufWriter of any size in front of the sink: C82_buffered_steady, C82_buffered_drop, C82_buffered_write_all, C82_buffered_xml, C82_buffered_osc; C82_buffered_text, C82_buffered_close, C82_buffered_unasked, C82_buffered_unasked_osc: what fits into the buffer is answered without asking the sink, so write_obj and close work on a sink that fails."
 },
 "C83": {
  "status": "proved",
  "note": "For every source that fails at some point, and every document cut at any byte: the reader gives n objects, where n depends on the bytes before the fault only, the same n that any continuation of these bytes gives first, then panics (for a cut: unless the bytes are a complete document on their own), and from then on always says that it is at the end. For text of the grammar with only holders (osm, osmChange, modify, create, delete) open, n is the number of all objects. Loops: a loop over a source that fails sees exactly the objects of a file that ends there (C83_loop, C83_loop_osc; over any source, C83_loop_over)."
 },
 "C84": {
  "status": "proved",
  "note": "For every history of calls (XML: without close, see C23), objects that can be represented, versions set, no faults: of every proper beginning of the file the reader gives exactly the objects whose writing was complete in it, equal in everything (timestamps as text), and then panics."
 },
 "C85": {
  "status": "partial",
  "note": "Proved for a source that fails (a disk or decompression error) after any bytes: the answers before the failure are those of every file beginning with these bytes, none of them is the end, then the error comes; changesets complete in the text of the grammar are delivered; one that is open is not; the program that stores tags stores no row and fails. False for a file that is merely cut: outside a changeset the readers say the end and the program reports success (C85_cut_fails, C85_program_cut_fails), inside one the reader hangs (C55_text_fails). For a cut file it is proved that the same answers come first and no changeset after them. C85_over and C85_over_tags say it for any source that hands out the bytes as it likes."
 },
 "C86": {
  "status": "proved",
  "note": "Opening fails exactly if the operating system cannot open the file. PBF, XML (compressed or not) and changesets then read as the readers over bytes do, for any decompressor whose output is the document; if the decompressor fails or stops inside the document, the complete objects come first and then a panic (XML) or an error (changesets). C86_pbf_any, C86_xml_any, C86_changesets_any and C86_tags_any say it for files of any bytes (C99, C101, C102), C86_pbf_damaged and C86_pbf_kinds for damaged files and for nodes(), ways() and relations() (C103, C105)."
 },
 "C87": {
  "status": "partial",
  "note": "Proved: both programs end on every file; osmio-osc-debug prints exactly what a loop over the reader sees, all objects of a file the change writer wrote, the complete ones of a torn file before it panics; its text says which objects it printed (C87_debug_text); osmio-pbf-read-speed prints the right count and, on the way, exactly the specified lines, as text too: counts with commas, times exact to the millisecond, rates as near as doubles and three places allow (C87_speed_text); without a readable file both panic. False: osmio-osc-debug leaves out everything from the first deleted node on and ends well (C87_debug_fails), as C33."
 },
 "C88": {
  "status": "proved",
  "note": "For any sequence of insertions, removals and clearings through tags_mut(): lookups, distinctness of keys, num_tags/tagged/untagged, and the other fields unchanged."
 },
 "C89": {
  "status": "proved",
  "note": "For every implementation of Read described by a relation to the bytes and errors to come: a text that just settles the first k results (they are the same, and no panics, whatever follows; no shorter beginning does) is read to its end and the source at most 8191 bytes further (the BufReader's buffer), whatever follows. Such a text exists exactly where results are settled (C89_just, C89_unique), and text of the grammar with only holders open settles as many results as it has objects (C89_objects); without its last byte the result would depend on what follows (C89_needed). The moment at which xml-rs hands an event out (at the character that completes it) is part of the library model. For ChangesetReader and ChangesetTagReader the same, with answers that may be errors about a changeset but not errors of the XML (C89_changesets, C89_changeset_tags); the beginning of a document whose parts are a dump of n changesets settles exactly n answers (C89_changesets_settled, C89_changeset_tags_settled). What quick-xml gives after an error of the source is a parameter."
 },
 "C90": {
  "status": "partial",
  "note": "Proved for any bytes, any number of calls and all three readers: all buffers asked for are filled but perhaps the last, which has less than 4 GiB (C90_bound). For whole frames, and for any file that is read to its end, the buffers together are smaller than the file (C90_frames_partial, C90_whole_partial). The claim is false in general: four bytes make a reader ask for up to 4 GiB (C90_fails), and the reader of shared objects reserves whatever size a block states (C90_reserved_partial, C90_reserved_fails). Buffers for decoded objects and the growth of the decompressed data are not counted."
 },
 "C91": {
  "status": "proved",
  "note": "For the three readers, any frame that is not data, anywhere after whole frames, and any continuation. As this includes headers, the features that a header requires are not looked at (C91_features)."
 },
 "C92": {
  "status": "proved",
  "note": "The format of zlib streams is specified from RFC 1950 and 1951 (Spec/Zlib.lean: stored, fixed and dynamic blocks, canonical codes, windows, Adler-32). flate2 is not part of /repo: the theorems suppose of the decompressor only that it gives back what a valid stream stands for (Decompresses), which C92_decompressor shows a concrete decompressor does; nothing is said of flate2 on bytes that are not a stream. raw_size is supposed to be set and right, as the shared-string reader needs it."
 },
 "C93": {
  "status": "partial",
  "note": "The format is specified in Spec/Bzip2.lean (run lengths, sorted rotations, move to front, canonical codes, check sums; without the obsolete randomised blocks, which no encoder writes any more). MultiBzDecoder is modelled as a loop over any decompressor of one stream that undoes valid streams, and on a part of a stream gives a part of its data and then an error (Undoes); C93_possible shows a concrete decompressor that does, and C93_every that every text has such files, with other streams after it. What libbz2 does on bytes that are no part of a file of streams is not modelled. Counterexample: C93_cut_fails, a dump cut off exactly between two streams is taken for a whole one by the changeset readers and by the program, which reports success."
 },
 "C94": {
  "status": "proved",
  "note": "The effect of every script on every object of all three families is exact (C94_script). Writing back is exact under the conditions that a written object must have a version, nodes a position, and text timestamps no quotes (C79_*_fails show why), and then holds if and only if every character of every text is one XML has and the parser leaves alone. Objects from PBF files always meet the conditions."
 },
 "C95": {
  "status": "proved",
  "note": "The loops of the code are stated without a bound (Spec/Loops.lean, Model/Loops.lean); the bounded functions of the model give their results. For the changeset readers see C55."
 },
 "C96": {
  "status": "partial",
  "note": "C96_pbf and C96_positions are iffs for every continuation, including one that is cut off or fails. C96_changesets: a text whose markup is sound and whose elements are closed, followed by any bytes. C96_dumps, C96_tag_dumps: any number of documents of the grammar. C96_bzip2, C96_program: compressed files, and the program that stores tags. C96_chain_delivers, C96_chain_nothing, C96_chain_pbf, C96_chain_positions, C96_chain_dumps, C96_chain_tag_dumps: two sources of any kind joined with Read::chain instead of copied (for XML C96_chain_xml_fails, C96_chain_osc_fails). Partial because the claim is false in these cases, each proved: a stray zero byte at the end of a PBF file, which alone does no harm (C96_tail_fails); XML and change files, where the second XML declaration is a panic (C96_xml_fails, C96_osc_fails); a changeset without an id, whose tags are reported under the last id of the file before (C96_tags_fails)."
 },
 "C97": {
  "status": "proved",
  "note": "All fourteen messages of both copies (they are identical). Fields, types, defaults and numbers come from the .proto files, the accessors from the Rust code. Only singular fields of numbers, texts and bytes have accessors; the others are public fields. Unknown fields are not modelled."
 },
 "C98": {
  "status": "proved",
  "note": "All fourteen messages. Completes C50, which says the same for bytes as they are written. A message inside that is given twice is the last one (the published description would merge the two); numbers too large for 32 bits are left open in model and specification alike."
 },
 "C99": {
  "status": "proved",
  "note": "An equivalence for any bytes, in builds with and without overflow checks (ReadableIn says what each can read). C99_checked compares the two. C99_streams: over every implementation of Read. The formulas are uniform for both readers; what each of them can read differs (BlockReadable, C65; DataIn, C47). zlib is a parameter; C92 says what it does."
 },
 "C100": {
  "status": "partial",
  "note": "Holds for the shared-string reader and the reader of positions, and for the owned-string reader with blobs stored raw or with zlib. C100_owned_fails: the owned-string reader passes over blobs compressed in another way (lzma, bzip2) without a sign; the others panic."
 },
 "C101": {
  "status": "proved",
  "note": "For any bytes whatever, from bytes to results. C101_streams: over every implementation of Read. C101_parts: the division into parts is an equivalence with a declarative description; C101_attributes the same for attributes. C101_changesets: the results are the described ones, and if none are described (an element whose tags go on to the end of the file, C55) the calls do not all return. Results are changesets or errors; kinds of errors are not told apart. quick-xml is modelled from its documented behaviour (Lib/QuickXmlBytes.lean)."
 },
 "C102": {
  "status": "proved",
  "note": "For any bytes whatever, from bytes to results, for both readers and also for a source that fails after the bytes (C102_failing). C102_beginning: the longest beginning exists and is unique; C102_document: for a document it is the document. An element with several attributes of the same local name is read as if it had one of them; which one is not said (it depends on the order in which the code removes attributes). C102_clear: otherwise the answers are fixed. C102_streams, C102_failing_streams: over every implementation of Read. xml-rs is modelled from its documented behaviour (Lib/Xml.lean), without document types and with UTF-8 as the only encoding."
 },
 "C103": {
  "status": "proved",
  "note": "For any bytes, damaged files included, for both readers of objects and the reader of positions; in both builds; C103_checked compares the two (whole frames, then an overflow), C103_failing for a source that fails after the bytes, C103_streams and C103_failing_streams over every implementation of Read, C103_damage: what follows frames that can be read has no effect on their objects. zlib is a parameter. Which of its panics the reader stops with is not stated."
 },
 "C104": {
  "status": "proved",
  "note": "For any bytes and for the three readers, in builds with and without overflow checks. The source is one whose read_exact takes what there is when it fails, as for files and buffered readers. zlib is a parameter. Which of its panics a reader gives is not stated. C104_frames and C104_shared: files of frames whose headers are in order; C104_one: exactly one result for any bytes; C104_streams: over every implementation of Read."
 },
 "C105": {
  "status": "proved",
  "note": "For any bytes, for the three methods of the owned-string reader (the iterators of the trait, which every reader has, are C17). In builds with and without overflow checks; C105_checked compares the two; C105_resumes for callers that go on after panics, C105_streams over every implementation of Read. How this compares with the objects of a kind among all objects is C43. zlib is a parameter."
 },
 "C106": {
  "status": "partial",
  "note": "For every sink and all objects, with both writers (C106_xml, C106_osc). What the sink has when the writer is gone: C106_osc_dropped, C106_xml_dropped. Read back: C106_osc_read (an iff). Partial because of XML: the end tag is written again when the returned writer is dropped, so the reader panics after the last object (C106_xml_read_fails). C106_any_xml, C106_any_osc: over every implementation of Write; C106_steady_xml, C106_steady_osc: exact for one that never fails."
 },
 "C107": {
  "status": "proved",
  "note": "For every reader, panics included (C107_loops, C107_left, C107_shows); what the loops show of any bytes: C107_pbf (both readers of objects), C107_xml (XML and change files); C107_streams over every implementation of Read. These are the iterators of the trait; the methods of the same names that the owned-string reader has itself are C43, C44 and C105."
 },
 "C108": {
  "status": "proved",
  "note": "Objects, nodes, ways and relations of all three families, both forms (C108_objects, C108_structs); several objects on lines of their own (C108_several); timestamps (C108_timestamps); changesets, whatever the order of their map of tags (C108_changesets). The tables of Unicode by which a character is shown as it is are a parameter."
 },
 "C109": {
  "status": "partial",
  "note": "Dependence on the getters only: C109_only_what_is_shown, in full, for any sink with any faults and any state of the writer. That different objects are written differently: exact for XML and OSC writers on a sink without faults, for objects with versions (others make write_obj panic, C26) and timestamps that are instants or texts without a double quote (C109_xml_shows_all_partial, C109_osc_shows_all_partial); with headers that differ, if there is no equals sign in their keys (C109_headers_partial). For timestamps with double quotes it is false: C109_fails has a node without and one with a position that are written alike; and so it is for keys of headers with an equals sign (C109_headers_fails)."
 },
 "C110": {
  "status": "proved",
  "note": "Exact for both formats and all sinks and sources: C110_xml, C110_osc (histories of calls), C110_killed_xml, C110_killed_osc (every proper beginning of the document, i.e. the writing process killed at any byte), C110_pbf_owned, C110_pbf_shared (a PBF file, complete or not, converted), C110_rewrite (an XML or change file, complete or not, rewritten), C110_edit (a PBF file edited on the way; EditEx.scripts_keep and the last examples meet its hypotheses). Assumed as in C27 and C28: versions (others make write_obj panic, C26), header names and values that form one element, timestamps without a double quote; for the killed writer the objects can be written without loss. The loops over any source are C81_xml_loop and C81_pbf_loop."
 }
}