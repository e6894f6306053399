{
 "claims": [
  {
   "property": "C01",
   "status": "proved",
   "theorems": [
    "Osmio.C01_lat_degrees_roundtrip",
    "Osmio.C01_lon_degrees_roundtrip",
    "Osmio.C01_conversions",
    "Osmio.C01_degrees_accuracy",
    "Osmio.C01_degrees_exact"
   ],
   "note": "all i32 values, IEEE double arithmetic modelled exactly degrees is exactly the double of IEEE 754 rounding: C01_degrees_exact."
  },
  {
   "property": "C02",
   "status": "proved",
   "theorems": [
    "Osmio.C02_lat_display_exact",
    "Osmio.C02_lon_display_exact",
    "Osmio.C02_lat_text_roundtrip",
    "Osmio.C02_lon_text_roundtrip"
   ],
   "note": "all i32 values; shortest-digits Display and the float grammar are modelled"
  },
  {
   "property": "C03",
   "status": "partial",
   "theorems": [
    "Osmio.C03_conversion_partial",
    "Osmio.C03_accepts_nearest",
    "Osmio.C03_fromStr",
    "Osmio.C03_nan_rejected_fails",
    "Osmio.C03_exact"
   ],
   "note": "range check and nearest unit proved for every finite or infinite double; NaN is accepted as 0 (C03_nan_rejected_fails) Exactly what comes out for every double: C03_exact, with the rounding of IEEE 754 as specification."
  },
  {
   "property": "C04",
   "status": "proved",
   "theorems": [
    "Osmio.C04_tryFrom_monotone",
    "Osmio.C04_degrees_order",
    "Osmio.C04_lon_degrees_order"
   ],
   "note": ""
  },
  {
   "property": "C05",
   "status": "proved",
   "theorems": [
    "Osmio.C05_set_lat_lon_atomic",
    "Osmio.C05_never_half"
   ],
   "note": "all three node types, any fallible conversions"
  },
  {
   "property": "C06",
   "status": "partial",
   "theorems": [
    "Osmio.C06_roundtrip_mod",
    "Osmio.C06_from_partial",
    "Osmio.C06_roundtrip_partial",
    "Osmio.C06_roundtrip_iff",
    "Osmio.C06_roundtrip_fails",
    "Osmio.C06_parse_roundtrip_partial",
    "Osmio.C06_parse_roundtrip_fails"
   ],
   "note": "exact result (mod 2^32) proved for every i64; the claim holds exactly for 0 <= t < 2^32 and fails outside"
  },
  {
   "property": "C07",
   "status": "proved",
   "theorems": [
    "Osmio.C07_calendar_spec",
    "Osmio.C07_iso_names_instant",
    "Osmio.C07_iso_injective"
   ],
   "note": ""
  },
  {
   "property": "C08",
   "status": "partial",
   "theorems": [
    "Osmio.C08_eq_refl",
    "Osmio.C08_eq_symm",
    "Osmio.C08_eq_trans_fails",
    "Osmio.C08_eq_trans_partial",
    "Osmio.C08_eq_trans_iff",
    "Osmio.C08_text_eq_number"
   ],
   "note": "reflexive and symmetric for all; transitivity fails in general (witness), proved on canonical texts 1970-2106 and all epoch numbers; exact condition for transitivity in C08_eq_trans_iff"
  },
  {
   "property": "C09",
   "status": "partial",
   "theorems": [
    "Osmio.C09_chronological_partial",
    "Osmio.C09_cmp_total",
    "Osmio.C09_cmp_swap",
    "Osmio.C09_same_repr_trans",
    "Osmio.C09_chronological_fails",
    "Osmio.C09_mixed_partial",
    "Osmio.C09_mixed_iff",
    "Osmio.C09_zone_fails"
   ],
   "note": "totality, agreement with == and swap law for all; chronological order proved on canonical texts 1970-2106 and all epoch numbers, fails for texts before 1970 compared with epoch numbers; exactly when a text and every number compare chronologically: C09_mixed_iff (the instant is in 1970-2106, any spelling and zone, C09_mixed_partial); texts of different zones: C09_zone_fails"
  },
  {
   "property": "C10",
   "status": "proved",
   "theorems": [
    "Osmio.C10_refused",
    "Osmio.C10_accepted",
    "Osmio.C10_fromStr_iff",
    "Osmio.C10_fromStr_rejects",
    "Osmio.C10_same_instant"
   ],
   "note": ""
  },
  {
   "property": "C11",
   "status": "proved",
   "theorems": [
    "Osmio.C11_tags_are_an_ordered_map",
    "Osmio.C11_from_untagged"
   ],
   "note": "all twelve object types, any history of mutators"
  },
  {
   "property": "C12",
   "status": "partial",
   "theorems": [
    "Osmio.C12_unset_tag_partial",
    "Osmio.C12_unset_tag_others_partial",
    "Osmio.C12_unset_tag_fails",
    "Osmio.C12_unset_tag_iff",
    "Osmio.C12_unset_tag_repeat"
   ],
   "note": "proved for distinct tag keys; false with repeated keys (C12_unset_tag_fails); exactly when unset removes the key: C12_unset_tag_iff (the key occurs at most once), what stays otherwise: C12_unset_tag_repeat"
  },
  {
   "property": "C13",
   "status": "proved",
   "theorems": [
    "Osmio.C13_setters",
    "Osmio.C13_histories",
    "Osmio.C13_node",
    "Osmio.C13_way",
    "Osmio.C13_relation",
    "Osmio.C13_sum"
   ],
   "note": "all twelve object types"
  },
  {
   "property": "C14",
   "status": "proved",
   "theorems": [
    "Osmio.C14_strip_metadata",
    "Osmio.C14_strip_metadata_payload"
   ],
   "note": ""
  },
  {
   "property": "C15",
   "status": "partial",
   "theorems": [
    "Osmio.C15_conversion_partial",
    "Osmio.C15_conversion_sum",
    "Osmio.C15_conversion_repeated_partial",
    "Osmio.C15_conversion_fails",
    "Osmio.C15_conversion_iff",
    "Osmio.C15_conversion_any"
   ],
   "note": "proved for distinct tag keys; with repeated keys the tag list is deduplicated (C15_conversion_fails); exactly the objects with distinct keys survive: C15_conversion_iff, the others are described by C15_conversion_any"
  },
  {
   "property": "C16",
   "status": "proved",
   "theorems": [
    "Osmio.C16_kind_coherent",
    "Osmio.C16_concrete_kinds",
    "Osmio.C16_mutable_references",
    "Osmio.C16_made",
    "Osmio.C16_made_of_shared"
   ],
   "note": ""
  },
  {
   "property": "C17",
   "status": "proved",
   "theorems": [
    "Osmio.C17_kind_iterators",
    "Osmio.C17_partition"
   ],
   "note": "any reader whose object stream ends"
  },
  {
   "property": "C18",
   "status": "proved",
   "theorems": [
    "Osmio.C18_refused",
    "Osmio.C18_accepted",
    "Osmio.C18_names_parse_back",
    "Osmio.C18_texts",
    "Osmio.C18_spellings",
    "Osmio.C18_order"
   ],
   "note": ""
  },
  {
   "property": "C19",
   "status": "proved",
   "theorems": [
    "Osmio.C19_is_closed",
    "Osmio.C19_is_area"
   ],
   "note": ""
  },
  {
   "property": "C20",
   "status": "partial",
   "theorems": [
    "Osmio.C20_json_partial",
    "Osmio.C20_json_valid",
    "Osmio.C20_json_untagged",
    "Osmio.C20_json_fails",
    "Osmio.C20_json_iff"
   ],
   "note": "valid JSON and ascending keys for every object; equal to the tag map for distinct keys, false for repeated keys (C20_json_fails); exactly the objects whose keys have the same first and last value: C20_json_iff"
  },
  {
   "property": "C21",
   "status": "proved",
   "theorems": [
    "Osmio.C21_escaping"
   ],
   "note": ""
  },
  {
   "property": "C22",
   "status": "partial",
   "theorems": [
    "Osmio.C22_xml_life_cycle",
    "Osmio.C22_osc_life_cycle_partial",
    "Osmio.C22_osc_set_header_fails"
   ],
   "note": "XML writer fully; OSC writer except set_header, which panics in every state (C22_osc_set_header_fails)"
  },
  {
   "property": "C23",
   "status": "partial",
   "theorems": [
    "Osmio.C23_output_partial",
    "Osmio.C23_one_document_partial",
    "Osmio.C23_nonvacuous",
    "Osmio.C23_close_fails",
    "Osmio.C23_from_iter_fails",
    "Osmio.C23_unversioned_fails",
    "Osmio.C23_any_history",
    "Osmio.C23_one_document_iff"
   ],
   "note": "exact output of every history, with any objects, on a working sink (C23_any_history); one document exactly if close is not called and every object has a version (C23_one_document_iff); so false with an explicit close (C23_close_fails, C23_from_iter_fails) and for caught panics (C23_unversioned_fails)"
  },
  {
   "property": "C24",
   "status": "partial",
   "theorems": [
    "Osmio.C24_one_document_partial",
    "Osmio.C24_unversioned_fails",
    "Osmio.C24_any_history",
    "Osmio.C24_one_document_iff"
   ],
   "note": "exact output of every history, with any objects (C24_any_history); one document exactly if every object written before the first close has a version (C24_one_document_iff); so false if an object without version is written and the panic caught (C24_unversioned_fails)"
  },
  {
   "property": "C25",
   "status": "proved",
   "theorems": [
    "Osmio.C25_xml_faults",
    "Osmio.C25_osc_faults",
    "Osmio.C25_any_object"
   ],
   "note": "any writer state, any fault schedule; objects with a version in C25_xml_faults and C25_osc_faults, any object in C25_any_object"
  },
  {
   "property": "C26",
   "status": "partial",
   "theorems": [
    "Osmio.C26_no_panic_partial",
    "Osmio.C26_unversioned_fails",
    "Osmio.C26_osc_unversioned_fails",
    "Osmio.C26_no_panic_iff",
    "Osmio.C26_closed"
   ],
   "note": "proved for objects with a version, false otherwise (C26_unversioned_fails); exactly when a write panics: C26_no_panic_iff; a closed writer refuses: C26_closed; osmChange: C26_osc_unversioned_fails"
  },
  {
   "property": "C27",
   "status": "partial",
   "theorems": [
    "Osmio.C27_close_fails",
    "Osmio.C27_iff",
    "Osmio.C27_exact",
    "Osmio.C27_count",
    "Osmio.C27_exact_nonvacuous",
    "Osmio.C27_texts",
    "Osmio.C27_xml_roundtrip_partial",
    "Osmio.C27_timestamp_iff",
    "Osmio.C27_malformed_fails",
    "Osmio.C27_newline_fails",
    "Osmio.C27_nonvacuous"
   ],
   "note": "exactly which objects come back (C27_exact): those whose nodes have positions and whose texts have only characters that XML has and that the parser keeps, whatever the map order; every text of XML characters comes back as the parser reports it (C27_texts). False for values with line breaks (C27_newline_fails), characters XML forbids and text timestamps that need escapes (C27_malformed_fails), and timestamps outside u32 (C27_timestamp_iff); exactly when no object is lost: C27_count; a file whose writer was closed before it was dropped gives all objects and then a panic (C27_close_fails); for all histories, with or without close: C27_iff"
  },
  {
   "property": "C28",
   "status": "partial",
   "theorems": [
    "Osmio.C28_iff",
    "Osmio.C28_exact",
    "Osmio.C28_count",
    "Osmio.C28_texts",
    "Osmio.C28_osc_roundtrip_partial"
   ],
   "note": "as C27, for osmChange documents (C28_exact, C28_texts); for all histories, whenever and however often close is called: C28_iff"
  },
  {
   "property": "C29",
   "status": "partial",
   "theorems": [
    "Osmio.C29_headers_any_partial",
    "Osmio.C29_iff",
    "Osmio.C29_headers_partial",
    "Osmio.C29_key_fails"
   ],
   "note": "Exactly which headers are given back, for every history and iteration order: C29_iff (keys that are names without colon or in the name space xml, other than xmlns, version and generator; values of characters that XML has and the parser reports as they are). C29_headers_any_partial says that then each appears exactly once with its last value and nothing else appears. Other keys make the document malformed or change other attributes, since keys are not escaped (C29_key_fails)."
  },
  {
   "property": "C30",
   "status": "partial",
   "theorems": [
    "Osmio.C30_iff",
    "Osmio.C30_one_tree",
    "Osmio.C30_wellFormed_partial",
    "Osmio.C30_wellFormed_osc_partial",
    "Osmio.C30_wellFormed_any",
    "Osmio.C30_wellFormed_iff",
    "Osmio.C30_any",
    "Osmio.C30_any_iff",
    "Osmio.C30_streams",
    "Osmio.C30_every_object_partial",
    "Osmio.C30_text_partial",
    "Osmio.C30_text_osc_partial",
    "Osmio.C30_nested_fails"
   ],
   "note": "Documents in which object elements are not nested in each other (false otherwise, C30_nested_fails), for texts of the XML grammar (C30_text_partial) and for any bytes the parser accepts (C30_every_object_partial, there without two of the attributes that mean something, such as id and x:id, differing only in prefix). Exactly when a loop yields them all: C30_iff. For documents of the grammar with objects inside objects: C30_any says what every call gives, C30_any_iff that a loop yields as many objects as there are elements exactly if nothing is nested and every element is readable. For every well formed document without document type, with name spaces: C30_wellFormed_partial, C30_wellFormed_any, C30_wellFormed_iff (attributes of one element must not differ only in prefix); a text has one tree: C30_one_tree."
  },
  {
   "property": "C31",
   "status": "partial",
   "theorems": [
    "Osmio.C31_wellFormed_partial",
    "Osmio.C31_attribute_order_partial",
    "Osmio.C31_prefix_fails",
    "Osmio.C31_text_partial",
    "Osmio.C31_streams_partial"
   ],
   "note": "All documents, any number of calls, as long as no element has two attributes that differ only in prefix and whose local name is one the reader looks at (id, ref, ...); the reader ignores prefixes, so prefixed attributes can be taken for plain ones (C31_prefix_fails). For every well formed document without document type, with name spaces: C31_wellFormed_partial."
  },
  {
   "property": "C32",
   "status": "partial",
   "theorems": [
    "Osmio.C32_wellFormed_partial",
    "Osmio.C32_children_in_order_partial",
    "Osmio.C32_malformed_child_skipped",
    "Osmio.C32_text_partial"
   ],
   "note": "all documents in which object elements are not nested and no element has two attributes that differ only in prefix and whose local name is one the reader looks at (id, ref, ...); what becomes of the content of nested objects is said by C30_any. For every well formed document without document type, with name spaces: C32_wellFormed_partial."
  },
  {
   "property": "C33",
   "status": "partial",
   "theorems": [
    "Osmio.C33_loop_partial",
    "Osmio.C33_wellFormed_any",
    "Osmio.C33_any",
    "Osmio.C33_resume_partial",
    "Osmio.C33_early_end_fails",
    "Osmio.C33_text_resume_partial"
   ],
   "note": "holds for readable objects; false in general: an object without id ends the iteration early (C33_early_end_fails). What a loop yields exactly: C33_loop_partial (the objects before the first unreadable element), and C33_any if objects are nested. For every well formed document without document type, with name spaces: C33_wellFormed_any."
  },
  {
   "property": "C34",
   "status": "proved",
   "theorems": [
    "Osmio.C34_readers_agree",
    "Osmio.C34_calls_agree"
   ],
   "note": "both readers, call by call and over whole streams"
  },
  {
   "property": "C35",
   "status": "proved",
   "theorems": [
    "Osmio.C35_running_sums",
    "Osmio.C35_inverse"
   ],
   "note": "all accepted blocks, both readers, both builds; members: as far as the shortest of the three lists a relation stores them in"
  },
  {
   "property": "C36",
   "status": "partial",
   "theorems": [
    "Osmio.C36_formula",
    "Osmio.C36_partial",
    "Osmio.C36_iff",
    "Osmio.C36_checked",
    "Osmio.C36_fails",
    "Osmio.C36_fails_witness"
   ],
   "note": "exact for granularities and offsets that are whole units of 100 nanodegrees and results that fit (C36_formula gives what is computed in all cases, C36_iff exactly when a coordinate is right); false otherwise: granularity below 100 puts every node at the offset (C36_fails)"
  },
  {
   "property": "C37",
   "status": "partial",
   "theorems": [
    "Osmio.C37_partial",
    "Osmio.C37_formula",
    "Osmio.C37_ways_iff",
    "Osmio.C37_ways_fail",
    "Osmio.C37_dense_fails"
   ],
   "note": "exact with the default granularity of 1000, for nodes as long as the sums fit i32; false for ways and relations with any other granularity, which they ignore (C37_ways_fail, C37_ways_iff), and for nodes with other granularities (C37_dense_fails; C37_formula gives what is computed in all cases)"
  },
  {
   "property": "C38",
   "status": "partial",
   "theorems": [
    "Osmio.C38_partial",
    "Osmio.C38_determined",
    "Osmio.C38_owned_fails",
    "Osmio.C38_shared_fails"
   ],
   "note": "all blocks that follow the format with keys_vals; a block without keys_vals makes the owned-string reader panic (C38_owned_fails); the shared-string reader silently drops tags with invalid text (C38_shared_fails)"
  },
  {
   "property": "C39",
   "status": "proved",
   "theorems": [
    "Osmio.C39_well_formed",
    "Osmio.C39_accepted"
   ],
   "note": "well formed blocks are shown exactly (C39_well_formed), and in every accepted block each way, relation and node shows its own message (C39_accepted)"
  },
  {
   "property": "C40",
   "status": "partial",
   "theorems": [
    "Osmio.C40_partial",
    "Osmio.C40_owned_fails",
    "Osmio.C40_shared_fails"
   ],
   "note": "dense nodes and objects that state the flag; a missing flag: the owned-string reader takes it as deleted (C40_owned_fails), the shared-string reader panics (C40_shared_fails)"
  },
  {
   "property": "C41",
   "status": "proved",
   "theorems": [
    "Osmio.C41_blocks",
    "Osmio.C41_first_bad",
    "Osmio.C41_calls",
    "Osmio.C41_written"
   ],
   "note": "all files, both readers; from encoded bytes to objects in C41_written; C41_calls is the form call by call"
  },
  {
   "property": "C42",
   "status": "proved",
   "theorems": [
    "Osmio.C42_any_bytes",
    "Osmio.C42_cut"
   ],
   "note": "any bytes and any cut (C42_any_bytes); exact outcome for files of accepted blocks (C42_cut)"
  },
  {
   "property": "C43",
   "status": "partial",
   "theorems": [
    "Osmio.C43_nodes",
    "Osmio.C43_partial",
    "Osmio.C43_iff",
    "Osmio.C43_fails"
   ],
   "note": "nodes() without conditions (C43_nodes); ways() and relations() exactly for files in which no group with ways has dense nodes, and no group with relations has dense nodes or ways (C43_iff); false otherwise (C43_fails)"
  },
  {
   "property": "C44",
   "status": "partial",
   "theorems": [
    "Osmio.C44_partial",
    "Osmio.C44_fails",
    "Osmio.C44_nodes_exact",
    "Osmio.C44_fails_witness"
   ],
   "note": "holds for the kind iterators of the trait, on every reader; false for the inherent methods of the owned-string reader: the filter stays set (C44_fails); what objects() gives after nodes() was dropped at any point is C44_nodes_exact: what is left of the block being read, then only the nodes of later blocks"
  },
  {
   "property": "C45",
   "status": "proved",
   "theorems": [
    "Osmio.C45_agree",
    "Osmio.C45_prefix"
   ],
   "note": "any source; also prefixes when one fails (C45_prefix)"
  },
  {
   "property": "C46",
   "status": "partial",
   "theorems": [
    "Osmio.C46_partial",
    "Osmio.C46_iff",
    "Osmio.C46_fails"
   ],
   "note": "exactly the files whose groups have only their nodes if they have any, and something (C46_iff); false for mixed groups (C46_fails)"
  },
  {
   "property": "C47",
   "status": "partial",
   "theorems": [
    "Osmio.C47_shared_partial",
    "Osmio.C47_owned_fails"
   ],
   "note": "shared-string reader; false for the owned-string reader and the reader of positions, which panic on every uncompressed block (C47_owned_fails)"
  },
  {
   "property": "C48",
   "status": "partial",
   "theorems": [
    "Osmio.C48_shared_partial",
    "Osmio.C48_owned_fails"
   ],
   "note": "shared-string reader; the owned-string reader panics on every block with other than one group (C48_owned_fails)"
  },
  {
   "property": "C49",
   "status": "partial",
   "theorems": [
    "Osmio.C49_block",
    "Osmio.C49_block_overflow",
    "Osmio.C49_checked_partial",
    "Osmio.C49_overflow_witness",
    "Osmio.C49_cast_fails",
    "Osmio.C49_file",
    "Osmio.C49_positions",
    "Osmio.C49_exact",
    "Osmio.C49_exact_positions"
   ],
   "note": "C49_exact, C49_exact_positions: exactly the blocks on which the builds agree. All sources (C49_file, C49_positions): equal, or the checked build stops with an overflow after a prefix. The second part of the claim is false for casts with `as`, which both builds truncate silently (C49_cast_fails)"
  },
  {
   "property": "C50",
   "status": "proved",
   "theorems": [
    "Osmio.C50_blobHeader_roundtrip",
    "Osmio.C50_blobHeader_unknown",
    "Osmio.C50_blobHeader_order",
    "Osmio.C50_blob_roundtrip",
    "Osmio.C50_blob_unknown",
    "Osmio.C50_blob_order",
    "Osmio.C50_headerBBox_roundtrip",
    "Osmio.C50_headerBBox_unknown",
    "Osmio.C50_headerBBox_order",
    "Osmio.C50_headerBlock_roundtrip",
    "Osmio.C50_headerBlock_unknown",
    "Osmio.C50_headerBlock_order",
    "Osmio.C50_stringTable_roundtrip",
    "Osmio.C50_stringTable_unknown",
    "Osmio.C50_stringTable_order",
    "Osmio.C50_info_roundtrip",
    "Osmio.C50_info_unknown",
    "Osmio.C50_info_order",
    "Osmio.C50_node_roundtrip",
    "Osmio.C50_node_unknown",
    "Osmio.C50_node_order",
    "Osmio.C50_node_keys_unpacked",
    "Osmio.C50_node_vals_unpacked",
    "Osmio.C50_denseInfo_roundtrip",
    "Osmio.C50_denseInfo_unknown",
    "Osmio.C50_denseInfo_order",
    "Osmio.C50_denseInfo_version_unpacked",
    "Osmio.C50_denseInfo_timestamp_unpacked",
    "Osmio.C50_denseInfo_changeset_unpacked",
    "Osmio.C50_denseInfo_uid_unpacked",
    "Osmio.C50_denseInfo_userSid_unpacked",
    "Osmio.C50_denseInfo_visible_unpacked",
    "Osmio.C50_denseNodes_roundtrip",
    "Osmio.C50_denseNodes_unknown",
    "Osmio.C50_denseNodes_order",
    "Osmio.C50_denseNodes_id_unpacked",
    "Osmio.C50_denseNodes_lat_unpacked",
    "Osmio.C50_denseNodes_lon_unpacked",
    "Osmio.C50_denseNodes_keysVals_unpacked",
    "Osmio.C50_way_roundtrip",
    "Osmio.C50_way_unknown",
    "Osmio.C50_way_order",
    "Osmio.C50_way_keys_unpacked",
    "Osmio.C50_way_vals_unpacked",
    "Osmio.C50_way_refs_unpacked",
    "Osmio.C50_relation_roundtrip",
    "Osmio.C50_relation_unknown",
    "Osmio.C50_relation_order",
    "Osmio.C50_relation_keys_unpacked",
    "Osmio.C50_relation_vals_unpacked",
    "Osmio.C50_relation_rolesSid_unpacked",
    "Osmio.C50_relation_memids_unpacked",
    "Osmio.C50_relation_types_unpacked",
    "Osmio.C50_changeSet_roundtrip",
    "Osmio.C50_changeSet_unknown",
    "Osmio.C50_changeSet_order",
    "Osmio.C50_primitiveGroup_roundtrip",
    "Osmio.C50_primitiveGroup_unknown",
    "Osmio.C50_primitiveGroup_order",
    "Osmio.C50_primitiveBlock_roundtrip",
    "Osmio.C50_primitiveBlock_unknown",
    "Osmio.C50_primitiveBlock_order",
    "Osmio.C50_required_checked",
    "Osmio.C50_fields",
    "Osmio.C50_field",
    "Osmio.C50_packed"
   ],
   "note": "all fourteen messages; the encoding is specified from the .proto files; the protobuf library is modelled, not verified"
  },
  {
   "property": "C51",
   "status": "proved",
   "theorems": [
    "Osmio.C51_exhausted"
   ],
   "note": "all three readers, any bytes; for sources that report errors see C63"
  },
  {
   "property": "C52",
   "status": "proved",
   "theorems": [
    "Osmio.C52_doctype",
    "Osmio.C52_text",
    "Osmio.C52_names",
    "Osmio.C52_values",
    "Osmio.C52_utf8",
    "Osmio.C52_changesets",
    "Osmio.C52_unique",
    "Osmio.C52_all_ok",
    "Osmio.C52_iterator",
    "Osmio.C52_accessors"
   ],
   "note": "On sequences of quick-xml events (C52_changesets) and from the bytes of any document of the XML grammar without name spaces (C52_text, and C52_doctype when there is a document type). The statement is stronger than the claim: malformed elements give one error each and do not disturb the others."
  },
  {
   "property": "C53",
   "status": "proved",
   "theorems": [
    "Osmio.C53_doctype",
    "Osmio.C53_text",
    "Osmio.C53_tags",
    "Osmio.C53_unique",
    "Osmio.C53_end"
   ],
   "note": "On sequences of quick-xml events and from bytes (C53_text, and C53_doctype when there is a document type); only the id attribute has to be well formed."
  },
  {
   "property": "C54",
   "status": "proved",
   "theorems": [
    "Osmio.C54_text",
    "Osmio.C54_agree"
   ],
   "note": "Ids below 2^32, because a well formed element for ChangesetReader has a u32 id. On events and from bytes (C54_text)."
  },
  {
   "property": "C55",
   "status": "partial",
   "theorems": [
    "Osmio.C55_text_fails",
    "Osmio.C55_tags",
    "Osmio.C55_partial",
    "Osmio.C55_fails"
   ],
   "note": "C55_tags is the full claim for ChangesetTagReader. ChangesetReader returns if and only if the source does not end inside a changeset (C55_partial); otherwise it loops for ever at the end of the file (C55_fails, from bytes C55_text_fails), so the full claim is false of the code."
  },
  {
   "property": "C56",
   "status": "partial",
   "theorems": [
    "Osmio.C56_tags_exact",
    "Osmio.C56_changesets",
    "Osmio.C56_partial",
    "Osmio.C56_fails",
    "Osmio.C56_fails_after_error",
    "Osmio.C56_first"
   ],
   "note": "C56_changesets is the full claim for ChangesetReader. ChangesetTagReader reports an element without id under the id of an earlier one (C56_fails, C56_fails_after_error), so the full claim is false of the code; C56_partial holds for elements with an id, and C56_tags_exact says which pairs come out of any document."
  },
  {
   "property": "C57",
   "status": "proved",
   "theorems": [
    "Osmio.C57_malformed",
    "Osmio.C57_later",
    "Osmio.C57_complete",
    "Osmio.C57_tag"
   ],
   "note": "About ChangesetReader, which is what the claim's attributes belong to."
  },
  {
   "property": "C58",
   "status": "partial",
   "theorems": [
    "Osmio.C58_decode",
    "Osmio.C58_decode_exact",
    "Osmio.C58_partial",
    "Osmio.C58_fails",
    "Osmio.C58_iff",
    "Osmio.C58_separators",
    "Osmio.C58_tags_partial",
    "Osmio.C58_tags_iff",
    "Osmio.C58_way_nodes_partial",
    "Osmio.C58_way_nodes_fails",
    "Osmio.C58_members_partial",
    "Osmio.C58_members_iff",
    "Osmio.C58_members_fails"
   ],
   "note": "Holds for strings and tags without a percent sign (which is not escaped, C58_fails), ways with a node (C58_way_nodes_fails) and members whose roles have no comma (roles are not escaped, C58_members_fails); otherwise false of the code. src/opl is in the repository but not compiled into the crate. C58_iff, C58_tags_iff and C58_members_iff say exactly which strings, tags and members come back. C58_decode_exact says exactly what the string decoder accepts and what it makes of it."
  },
  {
   "property": "C59",
   "status": "partial",
   "theorems": [
    "Osmio.C59_buffered",
    "Osmio.C59_buffered_partial",
    "Osmio.C59_killed_partial",
    "Osmio.C59_killed_above",
    "Osmio.C59_killed_first",
    "Osmio.C59_partial",
    "Osmio.C59_exact",
    "Osmio.C59_sets_iff",
    "Osmio.C59_fails_above",
    "Osmio.C59_fails_sentinel",
    "Osmio.C59_fails_wraps"
   ],
   "note": "Exact result of every get after any sets: C59_exact; exactly which sets go through: C59_sets_iff. The claim holds for ids up to the largest one set and coordinates other than the sentinel; false above it, where the store panics (C59_fails_above), for coordinates that equal the sentinel (C59_fails_sentinel), and for ids from 2^61 on in a build without overflow checks, where the position of another node is given (C59_fails_wraps). src/nodestore.rs is not compiled into the crate. C59_buffered, C59_buffered_partial: the same through the BufWriter of the writer, whatever its capacity. C59_killed_partial: what the file has if the process ends between two calls, without the drop: all but the last set, for ids up to the largest one set before it. C59_killed_above, C59_killed_first: the other ids."
  },
  {
   "property": "C60",
   "status": "partial",
   "theorems": [
    "Osmio.C60_fails_minus_one_late",
    "Osmio.C60_encode_panics_iff",
    "Osmio.C60_encode_small",
    "Osmio.C60_partial",
    "Osmio.C60_iff_partial",
    "Osmio.C60_empty_partial",
    "Osmio.C60_way_partial",
    "Osmio.C60_fails_minus_one",
    "Osmio.C60_fails_return"
   ],
   "note": "For ids below 2^63 and chains without a step of -1 (other than to the first node), C60_iff_partial says exactly which chains come back: those in which a return to the first node is followed by the first node or one far away. Otherwise false of the code (C60_fails_minus_one, C60_fails_return). C60_fails_minus_one_late: the decoder panics for every chain as in C60_partial continued by a step of -1 (other than to the first node) and fewer than eight close nodes. Missing: the other chains with a step of -1, of which some come back by coincidence. C60_encode_panics_iff: exactly which chains, with any ids, the encoder panics for. src/nodechain.rs is not compiled into the crate."
  },
  {
   "property": "C61",
   "status": "proved",
   "theorems": [
    "Osmio.C61_node_builder",
    "Osmio.C61_way_builder",
    "Osmio.C61_relation_builder",
    "Osmio.C61_conversion_start",
    "Osmio.C61_changeset_builder",
    "Osmio.C61_changeset_incomplete"
   ],
   "note": ""
  },
  {
   "property": "C62",
   "status": "proved",
   "theorems": [
    "Osmio.C62_malformed",
    "Osmio.C62_loop",
    "Osmio.C62_iff",
    "Osmio.C62_iff_osc",
    "Osmio.C62_cut",
    "Osmio.C62_errors_surface",
    "Osmio.C62_no_silent_end"
   ],
   "note": "C62_iff: the files on which no call panics are exactly the UTF-8 texts of the grammar of well formed documents without document type (Spec/XmlGrammar.lean; name spaces, every XML declaration); C62_malformed: on any other file one call panics, and after it every call gives None; C62_cut: a document cut at any byte either makes a call panic or gives the same answers as the whole document (one root element). Document types, byte order marks and encodings other than UTF-8 are outside the model (it has them as errors), so nothing is said about such files."
  },
  {
   "property": "C63",
   "status": "partial",
   "theorems": [
    "Osmio.C63_partial",
    "Osmio.C63_fails",
    "Osmio.C63_exact",
    "Osmio.C63_goes_on"
   ],
   "note": "exact: a failing source has the same effect as a file that ends there, for every reader and all bytes (C63_exact); errors inside a frame after its length are seen (C63_partial); errors at a block boundary or within the length field are reported as the end, so the claim fails there (C63_fails)"
  },
  {
   "property": "C64",
   "status": "proved",
   "theorems": [
    "Osmio.C64_wellFormed",
    "Osmio.C64_characters",
    "Osmio.C64_documents",
    "Osmio.C64_documents_osc"
   ],
   "note": "C64_wellFormed: every well formed document without document type, name spaces included; with C62_iff these are the only files. The OSC reader is the same function of events (C34, C62_iff_osc). The grammar allows ]]> in text, and any local part after a colon, in which the parser is taken to be lenient."
  },
  {
   "property": "C65",
   "status": "partial",
   "theorems": [
    "Osmio.C65_readable_partial",
    "Osmio.C65_checked_partial",
    "Osmio.C65_both_partial",
    "Osmio.C65_both_positions_partial",
    "Osmio.C65_positions_partial",
    "Osmio.C65_plain_nodes_fails",
    "Osmio.C65_info_fails",
    "Osmio.C65_denseinfo_fails",
    "Osmio.C65_empty_group_fails"
   ],
   "note": "C65_both_partial and C65_both_positions_partial say exactly which blocks a reader gets through, in both builds (C65_readable_partial is the case without overflow checks; C65_checked_partial: otherwise it stops with an overflow). The format allows more (C65_*_fails: plain nodes, missing metadata, empty groups)."
  },
  {
   "property": "C66",
   "status": "proved",
   "theorems": [
    "Osmio.C66_f32_exact",
    "Osmio.C66_f32_iff",
    "Osmio.C66_f32_special",
    "Osmio.C66_lat",
    "Osmio.C66_lon"
   ],
   "note": "exact for every finite f32: the product with 10^7 needs at most 41 bits; infinities are range errors; NaN becomes 0 as in C03 (C66_f32_special)"
  },
  {
   "property": "C67",
   "status": "proved",
   "theorems": [
    "Osmio.C67_rounding",
    "Osmio.C67_syntax",
    "Osmio.C67_exact",
    "Osmio.C67_accuracy",
    "Osmio.C67_accepts_nearest",
    "Osmio.C67_monotone"
   ],
   "note": "C67_syntax characterises the accepted texts; C67_exact, C67_accuracy, C67_accepts_nearest and C67_monotone say what they are read as Exactly what comes out for every decimal text: C67_rounding."
  },
  {
   "property": "C68",
   "status": "partial",
   "theorems": [
    "Osmio.C68_line_partial",
    "Osmio.C68_white_space_partial",
    "Osmio.C68_file_partial",
    "Osmio.C68_user_fails",
    "Osmio.C68_empty_way_fails",
    "Osmio.C68_stream_fails",
    "Osmio.C68_bad_coordinate",
    "Osmio.C68_bad_tag",
    "Osmio.C68_source_errors",
    "Osmio.C68_short_line_fails"
   ],
   "note": "Holds if user name and roles are written without escapes (they are not decoded, C68_user_fails) and ways and relations are not empty (C68_empty_way_fails); an error looks like the end of the file (C68_stream_fails) and a short line panics (C68_short_line_fails). White space around lines is ignored (C68_white_space_partial), bad coordinates are refused (C68_bad_coordinate), source errors and bad UTF-8 look like the end (C68_source_errors). src/opl is not compiled into the crate. A bad escape in a tag is refused (C68_bad_tag)."
  },
  {
   "property": "C69",
   "status": "proved",
   "theorems": [
    "Osmio.C69_atomic",
    "Osmio.C69_result",
    "Osmio.C69_existing",
    "Osmio.C69_ends",
    "Osmio.C69_success_iff",
    "Osmio.C69_text",
    "Osmio.C69_only",
    "Osmio.C69_unopened",
    "Osmio.C69_disk",
    "Osmio.C69_program_iff",
    "Osmio.C69_program_ends"
   ],
   "note": "SQLite is modelled by its atomic commit: what is found after a crash is what was committed last. A changeset element with an end tag but without tags gets a row too. C69_only, C69_unopened, C69_disk, C69_program_iff and C69_program_ends start from the arguments of the program and the files on the disk."
  },
  {
   "property": "C70",
   "status": "proved",
   "theorems": [
    "Osmio.C70_report",
    "Osmio.C70_silent",
    "Osmio.C70_aligned"
   ],
   "note": "Order among keys with the same count: later in the alphabet first. Progress messages are not modelled."
  },
  {
   "property": "C71",
   "status": "proved",
   "theorems": [
    "Osmio.C71_i64",
    "Osmio.C71_u32",
    "Osmio.C71_u64",
    "Osmio.C71_unambiguous",
    "Osmio.C71_written",
    "Osmio.C71_xml",
    "Osmio.C71_nd",
    "Osmio.C71_member",
    "Osmio.C71_changesets",
    "Osmio.C71_useless"
   ],
   "note": "C71_i64, C71_u32, C71_u64 characterise the number parsers all text readers use; C71_xml, C71_nd, C71_member, C71_changesets and C71_useless apply them to what the readers show. Specification in Spec/Integer.lean."
  },
  {
   "property": "C72",
   "status": "proved",
   "theorems": [
    "Osmio.C72_exact",
    "Osmio.C72_parses_back",
    "Osmio.C72_injective",
    "Osmio.C72_form"
   ],
   "note": "all i32 values; Debug for f64 without width and precision is modelled in Lib/Float64Debug.lean"
  },
  {
   "property": "C73",
   "status": "proved",
   "theorems": [
    "Osmio.C73_blobHeader_size",
    "Osmio.C73_blobHeader_written",
    "Osmio.C73_blob_size",
    "Osmio.C73_blob_written",
    "Osmio.C73_headerBBox_size",
    "Osmio.C73_headerBBox_written",
    "Osmio.C73_headerBlock_size",
    "Osmio.C73_headerBlock_written",
    "Osmio.C73_stringTable_size",
    "Osmio.C73_stringTable_written",
    "Osmio.C73_info_size",
    "Osmio.C73_info_written",
    "Osmio.C73_node_size",
    "Osmio.C73_node_written",
    "Osmio.C73_denseInfo_size",
    "Osmio.C73_denseInfo_written",
    "Osmio.C73_denseNodes_size",
    "Osmio.C73_denseNodes_written",
    "Osmio.C73_way_size",
    "Osmio.C73_way_written",
    "Osmio.C73_relation_size",
    "Osmio.C73_relation_written",
    "Osmio.C73_changeSet_size",
    "Osmio.C73_changeSet_written",
    "Osmio.C73_primitiveGroup_size",
    "Osmio.C73_primitiveGroup_written",
    "Osmio.C73_primitiveBlock_size",
    "Osmio.C73_primitiveBlock_written"
   ],
   "note": "All fourteen messages of both generated copies. Unknown fields kept by the library are not modelled; sizes of 4 GiB and more are excluded from the first theorem (the cached size is a u32), and anything above 2 GiB is refused by the library."
  },
  {
   "property": "C74",
   "status": "proved",
   "theorems": [
    "Osmio.C74_lat",
    "Osmio.C74_lon",
    "Osmio.C74_timestamp_text",
    "Osmio.C74_timestamp_seconds",
    "Osmio.C74_type",
    "Osmio.C74_written",
    "Osmio.C74_roundtrip",
    "Osmio.C74_injective"
   ],
   "note": "Exact acceptance of JSON for each of the four types, exact form of what is written, roundtrip and injectivity. serde_json is modelled (Lib/SerdeJson), JSON is specified by RFC 8259 relations (Spec/JsonText)."
  },
  {
   "property": "C75",
   "status": "partial",
   "theorems": [
    "Osmio.C75_changesets_ref",
    "Osmio.C75_changesets_back_fails",
    "Osmio.C75_unique",
    "Osmio.C75_owned",
    "Osmio.C75_shared",
    "Osmio.C75_writers_fail",
    "Osmio.C75_writers_partial",
    "Osmio.C75_xml_inner_fails",
    "Osmio.C75_xml_back_fails"
   ],
   "note": "Proved of both PBF readers (whatever follows the frames, unique position). Fails of both writers, whose into_inner always panics with todo!; the panic still leaves a complete document behind on a reliable sink. Fails of the XML and change readers: inner() always panics (todo!), and into_inner drops what the BufReader has read ahead, which for a source of up to 8 KiB that gives what it is asked for is everything (C75_xml_back_fails). The same goes for ChangesetReader, whose into_inner and get_ref give the stream without what is in the buffer (C75_changesets_back_fails); how far they read is C89."
  },
  {
   "property": "C76",
   "status": "partial",
   "theorems": [
    "Osmio.C76_digits",
    "Osmio.C76_message",
    "Osmio.C76_number_partial",
    "Osmio.C76_number_fails",
    "Osmio.C76_number_fails_witness"
   ],
   "note": "Exactly which message every refused text gets, and the printed number is read back as the number in the error (every double is printed so that it is read back). The number is never the one that was given but its whole number of units (C76_number_fails, C76_number_partial). C76_digits gives the message for every finite number digit by digit (shortest and nearest decimal)."
  },
  {
   "property": "C77",
   "status": "partial",
   "theorems": [
    "Osmio.C77_complete",
    "Osmio.C77_owned_xml",
    "Osmio.C77_shared_xml",
    "Osmio.C77_owned_osc",
    "Osmio.C77_shared_osc",
    "Osmio.C77_nonvacuous",
    "Osmio.C77_fails"
   ],
   "note": "Every object a PBF reader gives is complete (C77_complete), and copying never fails at any call. Exactly which files are copied whole, as == compares objects and timestamps, and exactly which keep the number of objects, for both readers and both writers. Other files lose objects without an error from the writer (C77_fails)."
  },
  {
   "property": "C78",
   "status": "proved",
   "theorems": [
    "Osmio.C78_owned",
    "Osmio.C78_shared",
    "Osmio.C78_xml",
    "Osmio.C78_witness"
   ],
   "note": "All four readers, for all interleavings of hint calls with next, inner and the filters of nodes(), ways() and relations()."
  },
  {
   "property": "C79",
   "status": "partial",
   "theorems": [
    "Osmio.C79_read",
    "Osmio.C79_xml_partial",
    "Osmio.C79_osc_partial",
    "Osmio.C79_again_xml",
    "Osmio.C79_again_osc",
    "Osmio.C79_nonvacuous",
    "Osmio.C79_unversioned_fails",
    "Osmio.C79_misplaced_fails",
    "Osmio.C79_quoted_fails"
   ],
   "note": "Proved for all XML and OSC files and both writers, for objects with versions and timestamps without quotes, < and &: never fails, and exactly which files keep their objects; a rewritten file is a fixed point. C79_read needs no such hypotheses. The code violates the rest: the writer panics on unversioned objects (C79_unversioned_fails), a node with an unreadable position cuts the new file short (C79_misplaced_fails), and a quote in a timestamp changes the object (C79_quoted_fails)."
  },
  {
   "property": "C80",
   "status": "partial",
   "theorems": [
    "Osmio.C80_way",
    "Osmio.C80_relation",
    "Osmio.C80_node_partial",
    "Osmio.C80_node_sound",
    "Osmio.C80_untagged_fails",
    "Osmio.C80_obj_partial",
    "Osmio.C80_owned",
    "Osmio.C80_sound",
    "Osmio.C80_contents",
    "Osmio.C80_symm",
    "Osmio.C80_refl",
    "Osmio.C80_mutators",
    "Osmio.C80_converted_rc",
    "Osmio.C80_converted_arc",
    "Osmio.C80_identical",
    "Osmio.C80_trans_partial",
    "Osmio.C80_trans_fails",
    "Osmio.C80_pbf_fails",
    "Osmio.C80_unset_fails"
   ],
   "note": "Proved exactly for ways, relations and owned nodes of all families and for shared nodes with a tag; reflexive, symmetric, preserved by every mutator and by conversion; equal objects with the same timestamp representation are identical; transitive within one timestamp format. The code violates the rest: a shared node without tags differs from one that shows the same (C80_untagged_fails, C80_unset_fails, C80_pbf_fails), and == is not transitive across timestamp formats (C80_trans_fails)."
  },
  {
   "property": "C81",
   "status": "proved",
   "theorems": [
    "Osmio.C81_xml_loop",
    "Osmio.C81_pbf_loop",
    "Osmio.C81_owned",
    "Osmio.C81_shared",
    "Osmio.C81_positions",
    "Osmio.C81_same",
    "Osmio.C81_buffered",
    "Osmio.C81_portions",
    "Osmio.C81_changesets",
    "Osmio.C81_changeset_tags",
    "Osmio.C81_changesets_same",
    "Osmio.C81_changesets_unique",
    "Osmio.C81_take_delivers",
    "Osmio.C81_take_pbf",
    "Osmio.C81_take_positions",
    "Osmio.C81_take_xml",
    "Osmio.C81_take_keeps",
    "Osmio.C81_take_left",
    "Osmio.C81_take_changesets",
    "Osmio.C81_xml",
    "Osmio.C81_osc",
    "Osmio.C81_xml_same",
    "Osmio.C81_xml_portions"
   ],
   "note": "For every implementation of Read described by a relation to the bytes and errors to come (any portions, interruptions, errors; finitely many bytes, an end that stays the end), all three PBF readers give, for any number of calls, the results they give on that list of bytes, and leave the rest; BufReader of any size in front is such a source. The XML and change readers, which pull bytes through their BufReader, likewise (C81_xml, C81_osc), and so do ChangesetReader and ChangesetTagReader (C81_changesets, C81_changeset_tags: exactly the same answers, and a call that never returns over one source returns over none); how far they have read is C89. Whole loops: C81_xml_loop, C81_pbf_loop; writing and reading back: C110. C81_take_delivers, C81_take_pbf, C81_take_positions, C81_take_xml, C81_take_changesets: a file inside a longer stream, limited to its length with Read::take, is read like the file alone; C81_take_keeps, C81_take_left: nothing of what follows it is read."
  },
  {
   "property": "C82",
   "status": "proved",
   "theorems": [
    "Osmio.C82_xml",
    "Osmio.C82_osc",
    "Osmio.C82_steady_xml",
    "Osmio.C82_steady_osc",
    "Osmio.C82_document_xml",
    "Osmio.C82_document_osc",
    "Osmio.C82_text",
    "Osmio.C82_buffered_steady",
    "Osmio.C82_buffered_drop",
    "Osmio.C82_buffered_xml",
    "Osmio.C82_buffered_osc",
    "Osmio.C82_buffered_write_all",
    "Osmio.C82_buffered_text",
    "Osmio.C82_buffered_close",
    "Osmio.C82_buffered_unasked",
    "Osmio.C82_buffered_unasked_osc"
   ],
   "note": "For every implementation of Write and every way of write! to cut its text, a history of calls with the drop at its end gives the answers and bytes of the run on a sink with some schedule of faults, so C23-C26 speak of every sink; without faults if the sink never fails. BufWriter of any size in front of the sink: C82_buffered_steady, C82_buffered_drop, C82_buffered_write_all, C82_buffered_xml, C82_buffered_osc; C82_buffered_text, C82_buffered_close, C82_buffered_unasked, C82_buffered_unasked_osc: what fits into the buffer is answered without asking the sink, so write_obj and close work on a sink that fails."
  },
  {
   "property": "C83",
   "status": "proved",
   "theorems": [
    "Osmio.C83_loop",
    "Osmio.C83_loop_osc",
    "Osmio.C83_loop_over",
    "Osmio.C83_failing",
    "Osmio.C83_cut",
    "Osmio.C83_delivered",
    "Osmio.C83_failing_osc",
    "Osmio.C83_cut_osc",
    "Osmio.C83_delivered_osc",
    "Osmio.C83_whole"
   ],
   "note": "For every source that fails at some point, and every document cut at any byte: the reader gives n objects, where n depends on the bytes before the fault only, the same n that any continuation of these bytes gives first, then panics (for a cut: unless the bytes are a complete document on their own), and from then on always says that it is at the end. For text of the grammar with only holders (osm, osmChange, modify, create, delete) open, n is the number of all objects. Loops: a loop over a source that fails sees exactly the objects of a file that ends there (C83_loop, C83_loop_osc; over any source, C83_loop_over)."
  },
  {
   "property": "C84",
   "status": "proved",
   "theorems": [
    "Osmio.C84_xml",
    "Osmio.C84_osc",
    "Osmio.C84_nonvacuous"
   ],
   "note": "For every history of calls (XML: without close, see C23), objects that can be represented, versions set, no faults: of every proper beginning of the file the reader gives exactly the objects whose writing was complete in it, equal in everything (timestamps as text), and then panics."
  },
  {
   "property": "C85",
   "status": "partial",
   "theorems": [
    "Osmio.C85_over",
    "Osmio.C85_over_tags",
    "Osmio.C85_failing",
    "Osmio.C85_failing_tags",
    "Osmio.C85_delivered",
    "Osmio.C85_delivered_tags",
    "Osmio.C85_inside",
    "Osmio.C85_cut_partial",
    "Osmio.C85_cut_fails",
    "Osmio.C85_program",
    "Osmio.C85_program_cut_fails"
   ],
   "note": "Proved for a source that fails (a disk or decompression error) after any bytes: the answers before the failure are those of every file beginning with these bytes, none of them is the end, then the error comes; changesets complete in the text of the grammar are delivered; one that is open is not; the program that stores tags stores no row and fails. False for a file that is merely cut: outside a changeset the readers say the end and the program reports success (C85_cut_fails, C85_program_cut_fails), inside one the reader hangs (C55_text_fails). For a cut file it is proved that the same answers come first and no changeset after them. C85_over and C85_over_tags say it for any source that hands out the bytes as it likes."
  },
  {
   "property": "C86",
   "status": "proved",
   "theorems": [
    "Osmio.C86_opens",
    "Osmio.C86_pbf",
    "Osmio.C86_xml",
    "Osmio.C86_xml_damaged",
    "Osmio.C86_not_compressed",
    "Osmio.C86_changesets",
    "Osmio.C86_changesets_damaged",
    "Osmio.C86_tags",
    "Osmio.C86_pbf_any",
    "Osmio.C86_pbf_damaged",
    "Osmio.C86_pbf_kinds",
    "Osmio.C86_changesets_any",
    "Osmio.C86_tags_any",
    "Osmio.C86_xml_any"
   ],
   "note": "Opening fails exactly if the operating system cannot open the file. PBF, XML (compressed or not) and changesets then read as the readers over bytes do, for any decompressor whose output is the document; if the decompressor fails or stops inside the document, the complete objects come first and then a panic (XML) or an error (changesets). C86_pbf_any, C86_xml_any, C86_changesets_any and C86_tags_any say it for files of any bytes (C99, C101, C102), C86_pbf_damaged and C86_pbf_kinds for damaged files and for nodes(), ways() and relations() (C103, C105)."
  },
  {
   "property": "C87",
   "status": "partial",
   "theorems": [
    "Osmio.C87_debug_text",
    "Osmio.C87_speed_text",
    "Osmio.C87_speed_text_exact",
    "Osmio.C87_debug",
    "Osmio.C87_no_input",
    "Osmio.C87_debug_written",
    "Osmio.C87_debug_torn",
    "Osmio.C87_debug_document_partial",
    "Osmio.C87_debug_fails",
    "Osmio.C87_speed",
    "Osmio.C87_speed_lines"
   ],
   "note": "Proved: both programs end on every file; osmio-osc-debug prints exactly what a loop over the reader sees, all objects of a file the change writer wrote, the complete ones of a torn file before it panics; its text says which objects it printed (C87_debug_text); osmio-pbf-read-speed prints the right count and, on the way, exactly the specified lines, as text too: counts with commas, times exact to the millisecond, rates as near as doubles and three places allow (C87_speed_text); without a readable file both panic. False: osmio-osc-debug leaves out everything from the first deleted node on and ends well (C87_debug_fails), as C33."
  },
  {
   "property": "C88",
   "status": "proved",
   "theorems": [
    "Osmio.C88_tags_mut",
    "Osmio.C88_num_tags"
   ],
   "note": "For any sequence of insertions, removals and clearings through tags_mut(): lookups, distinctness of keys, num_tags/tagged/untagged, and the other fields unchanged."
  },
  {
   "property": "C89",
   "status": "proved",
   "theorems": [
    "Osmio.C89_changesets",
    "Osmio.C89_changeset_tags",
    "Osmio.C89_changesets_untouched",
    "Osmio.C89_changesets_just",
    "Osmio.C89_changesets_settled",
    "Osmio.C89_changeset_tags_settled",
    "Osmio.C89_streams",
    "Osmio.C89_streams_osc",
    "Osmio.C89_untouched",
    "Osmio.C89_just",
    "Osmio.C89_unique",
    "Osmio.C89_objects",
    "Osmio.C89_needed"
   ],
   "note": "For every implementation of Read described by a relation to the bytes and errors to come: a text that just settles the first k results (they are the same, and no panics, whatever follows; no shorter beginning does) is read to its end and the source at most 8191 bytes further (the BufReader's buffer), whatever follows. Such a text exists exactly where results are settled (C89_just, C89_unique), and text of the grammar with only holders open settles as many results as it has objects (C89_objects); without its last byte the result would depend on what follows (C89_needed). The moment at which xml-rs hands an event out (at the character that completes it) is part of the library model. For ChangesetReader and ChangesetTagReader the same, with answers that may be errors about a changeset but not errors of the XML (C89_changesets, C89_changeset_tags); the beginning of a document whose parts are a dump of n changesets settles exactly n answers (C89_changesets_settled, C89_changeset_tags_settled). What quick-xml gives after an error of the source is a parameter."
  },
  {
   "property": "C90",
   "status": "partial",
   "theorems": [
    "Osmio.C90_bound",
    "Osmio.C90_frames_partial",
    "Osmio.C90_whole_partial",
    "Osmio.C90_fails",
    "Osmio.C90_reserved_partial",
    "Osmio.C90_reserved_fails"
   ],
   "note": "Proved for any bytes, any number of calls and all three readers: all buffers asked for are filled but perhaps the last, which has less than 4 GiB (C90_bound). For whole frames, and for any file that is read to its end, the buffers together are smaller than the file (C90_frames_partial, C90_whole_partial). The claim is false in general: four bytes make a reader ask for up to 4 GiB (C90_fails), and the reader of shared objects reserves whatever size a block states (C90_reserved_partial, C90_reserved_fails). Buffers for decoded objects and the growth of the decompressed data are not counted."
  },
  {
   "property": "C91",
   "status": "proved",
   "theorems": [
    "Osmio.C91_ignored",
    "Osmio.C91_any_header",
    "Osmio.C91_features"
   ],
   "note": "For the three readers, any frame that is not data, anywhere after whole frames, and any continuation. As this includes headers, the features that a header requires are not looked at (C91_features)."
  },
  {
   "property": "C92",
   "status": "proved",
   "theorems": [
    "Osmio.C92_one",
    "Osmio.C92_every",
    "Osmio.C92_decompressor",
    "Osmio.C92_blocks",
    "Osmio.C92_written",
    "Osmio.C92_same"
   ],
   "note": "The format of zlib streams is specified from RFC 1950 and 1951 (Spec/Zlib.lean: stored, fixed and dynamic blocks, canonical codes, windows, Adler-32). flate2 is not part of /repo: the theorems suppose of the decompressor only that it gives back what a valid stream stands for (Decompresses), which C92_decompressor shows a concrete decompressor does; nothing is said of flate2 on bytes that are not a stream. raw_size is supposed to be set and right, as the shared-string reader needs it."
  },
  {
   "property": "C93",
   "status": "partial",
   "theorems": [
    "Osmio.C93_possible",
    "Osmio.C93_data",
    "Osmio.C93_same",
    "Osmio.C93_xml",
    "Osmio.C93_xml_damaged",
    "Osmio.C93_changesets",
    "Osmio.C93_tags",
    "Osmio.C93_changesets_damaged",
    "Osmio.C93_program_damaged",
    "Osmio.C93_program",
    "Osmio.C93_cut_fails",
    "Osmio.C93_every"
   ],
   "note": "The format is specified in Spec/Bzip2.lean (run lengths, sorted rotations, move to front, canonical codes, check sums; without the obsolete randomised blocks, which no encoder writes any more). MultiBzDecoder is modelled as a loop over any decompressor of one stream that undoes valid streams, and on a part of a stream gives a part of its data and then an error (Undoes); C93_possible shows a concrete decompressor that does, and C93_every that every text has such files, with other streams after it. What libbz2 does on bytes that are no part of a file of streams is not modelled. Counterexample: C93_cut_fails, a dump cut off exactly between two streams is taken for a whole one by the changeset readers and by the program, which reports success."
  },
  {
   "property": "C94",
   "status": "proved",
   "theorems": [
    "Osmio.C94_script",
    "Osmio.C94_pbf",
    "Osmio.C94_xml",
    "Osmio.C94_osc",
    "Osmio.C94_nonvacuous"
   ],
   "note": "The effect of every script on every object of all three families is exact (C94_script). Writing back is exact under the conditions that a written object must have a version, nodes a position, and text timestamps no quotes (C79_*_fails show why), and then holds if and only if every character of every text is one XML has and the parser leaves alone. Objects from PBF files always meet the conditions."
  },
  {
   "property": "C95",
   "status": "proved",
   "theorems": [
    "Osmio.C95_blob",
    "Osmio.C95_next",
    "Osmio.C95_chain",
    "Osmio.C95_pbf",
    "Osmio.C95_xml",
    "Osmio.C95_opl"
   ],
   "note": "The loops of the code are stated without a bound (Spec/Loops.lean, Model/Loops.lean); the bounded functions of the model give their results. For the changeset readers see C55."
  },
  {
   "property": "C96",
   "status": "partial",
   "theorems": [
    "Osmio.C96_chain_delivers",
    "Osmio.C96_chain_nothing",
    "Osmio.C96_chain_pbf",
    "Osmio.C96_chain_positions",
    "Osmio.C96_chain_dumps",
    "Osmio.C96_chain_tag_dumps",
    "Osmio.C96_chain_xml_fails",
    "Osmio.C96_chain_osc_fails",
    "Osmio.C96_pbf",
    "Osmio.C96_positions",
    "Osmio.C96_tail_fails",
    "Osmio.C96_changesets",
    "Osmio.C96_dumps",
    "Osmio.C96_tags_partial",
    "Osmio.C96_tag_dumps",
    "Osmio.C96_tags_fails",
    "Osmio.C96_bzip2",
    "Osmio.C96_program",
    "Osmio.C96_xml_fails",
    "Osmio.C96_osc_fails"
   ],
   "note": "C96_pbf and C96_positions are iffs for every continuation, including one that is cut off or fails. C96_changesets: a text whose markup is sound and whose elements are closed, followed by any bytes. C96_dumps, C96_tag_dumps: any number of documents of the grammar. C96_bzip2, C96_program: compressed files, and the program that stores tags. C96_chain_delivers, C96_chain_nothing, C96_chain_pbf, C96_chain_positions, C96_chain_dumps, C96_chain_tag_dumps: two sources of any kind joined with Read::chain instead of copied (for XML C96_chain_xml_fails, C96_chain_osc_fails). Partial because the claim is false in these cases, each proved: a stray zero byte at the end of a PBF file, which alone does no harm (C96_tail_fails); XML and change files, where the second XML declaration is a panic (C96_xml_fails, C96_osc_fails); a changeset without an id, whose tags are reported under the last id of the file before (C96_tags_fails)."
  },
  {
   "property": "C97",
   "status": "proved",
   "theorems": [
    "Osmio.C97_accessors",
    "Osmio.C97_default_instance",
    "Osmio.C97_member_types",
    "Osmio.C97_readers"
   ],
   "note": "All fourteen messages of both copies (they are identical). Fields, types, defaults and numbers come from the .proto files, the accessors from the Rust code. Only singular fields of numbers, texts and bytes have accessors; the others are public fields. Unknown fields are not modelled."
  },
  {
   "property": "C98",
   "status": "proved",
   "theorems": [
    "Osmio.C98_blobHeader",
    "Osmio.C98_blob",
    "Osmio.C98_headerBBox",
    "Osmio.C98_headerBlock",
    "Osmio.C98_stringTable",
    "Osmio.C98_info",
    "Osmio.C98_node",
    "Osmio.C98_denseInfo",
    "Osmio.C98_denseNodes",
    "Osmio.C98_way",
    "Osmio.C98_relation",
    "Osmio.C98_changeSet",
    "Osmio.C98_primitiveGroup",
    "Osmio.C98_primitiveBlock"
   ],
   "note": "All fourteen messages. Completes C50, which says the same for bytes as they are written. A message inside that is given twice is the last one (the published description would merge the two); numbers too large for 32 bits are left open in model and specification alike."
  },
  {
   "property": "C99",
   "status": "proved",
   "theorems": [
    "Osmio.C99_block",
    "Osmio.C99_file",
    "Osmio.C99_checked",
    "Osmio.C99_positions",
    "Osmio.C99_one",
    "Osmio.C99_frames",
    "Osmio.C99_streams"
   ],
   "note": "An equivalence for any bytes, in builds with and without overflow checks (ReadableIn says what each can read). C99_checked compares the two. C99_streams: over every implementation of Read. The formulas are uniform for both readers; what each of them can read differs (BlockReadable, C65; DataIn, C47). zlib is a parameter; C92 says what it does."
  },
  {
   "property": "C100",
   "status": "partial",
   "theorems": [
    "Osmio.C100_partial",
    "Osmio.C100_owned_fails"
   ],
   "note": "Holds for the shared-string reader and the reader of positions, and for the owned-string reader with blobs stored raw or with zlib. C100_owned_fails: the owned-string reader passes over blobs compressed in another way (lzma, bzip2) without a sign; the others panic."
  },
  {
   "property": "C101",
   "status": "proved",
   "theorems": [
    "Osmio.C101_streams",
    "Osmio.C101_parts",
    "Osmio.C101_attributes",
    "Osmio.C101_changesets",
    "Osmio.C101_tags"
   ],
   "note": "For any bytes whatever, from bytes to results. C101_streams: over every implementation of Read. C101_parts: the division into parts is an equivalence with a declarative description; C101_attributes the same for attributes. C101_changesets: the results are the described ones, and if none are described (an element whose tags go on to the end of the file, C55) the calls do not all return. Results are changesets or errors; kinds of errors are not told apart. quick-xml is modelled from its documented behaviour (Lib/QuickXmlBytes.lean)."
  },
  {
   "property": "C102",
   "status": "proved",
   "theorems": [
    "Osmio.C102_streams",
    "Osmio.C102_failing_streams",
    "Osmio.C102_beginning",
    "Osmio.C102_xml",
    "Osmio.C102_osc",
    "Osmio.C102_failing",
    "Osmio.C102_clear",
    "Osmio.C102_loop",
    "Osmio.C102_document"
   ],
   "note": "For any bytes whatever, from bytes to results, for both readers and also for a source that fails after the bytes (C102_failing). C102_beginning: the longest beginning exists and is unique; C102_document: for a document it is the document. An element with several attributes of the same local name is read as if it had one of them; which one is not said (it depends on the order in which the code removes attributes). C102_clear: otherwise the answers are fixed. C102_streams, C102_failing_streams: over every implementation of Read. xml-rs is modelled from its documented behaviour (Lib/Xml.lean), without document types and with UTF-8 as the only encoding."
  },
  {
   "property": "C103",
   "status": "proved",
   "theorems": [
    "Osmio.C103_beginning",
    "Osmio.C103_objects",
    "Osmio.C103_positions",
    "Osmio.C103_checked",
    "Osmio.C103_failing",
    "Osmio.C103_damage",
    "Osmio.C103_streams",
    "Osmio.C103_failing_streams"
   ],
   "note": "For any bytes, damaged files included, for both readers of objects and the reader of positions; in both builds; C103_checked compares the two (whole frames, then an overflow), C103_failing for a source that fails after the bytes, C103_streams and C103_failing_streams over every implementation of Read, C103_damage: what follows frames that can be read has no effect on their objects. zlib is a parameter. Which of its panics the reader stops with is not stated."
  },
  {
   "property": "C104",
   "status": "proved",
   "theorems": [
    "Osmio.C104_objects",
    "Osmio.C104_positions",
    "Osmio.C104_one",
    "Osmio.C104_frames",
    "Osmio.C104_shared",
    "Osmio.C104_streams"
   ],
   "note": "For any bytes and for the three readers, in builds with and without overflow checks. The source is one whose read_exact takes what there is when it fails, as for files and buffered readers. zlib is a parameter. Which of its panics a reader gives is not stated. C104_frames and C104_shared: files of frames whose headers are in order; C104_one: exactly one result for any bytes; C104_streams: over every implementation of Read."
  },
  {
   "property": "C105",
   "status": "proved",
   "theorems": [
    "Osmio.C105_file",
    "Osmio.C105_damaged",
    "Osmio.C105_checked",
    "Osmio.C105_resumes",
    "Osmio.C105_other",
    "Osmio.C105_streams"
   ],
   "note": "For any bytes, for the three methods of the owned-string reader (the iterators of the trait, which every reader has, are C17). In builds with and without overflow checks; C105_checked compares the two; C105_resumes for callers that go on after panics, C105_streams over every implementation of Read. How this compares with the objects of a kind among all objects is C43. zlib is a parameter."
  },
  {
   "property": "C106",
   "status": "partial",
   "theorems": [
    "Osmio.C106_any_xml",
    "Osmio.C106_any_osc",
    "Osmio.C106_steady_osc",
    "Osmio.C106_steady_xml",
    "Osmio.C106_xml",
    "Osmio.C106_osc",
    "Osmio.C106_osc_dropped",
    "Osmio.C106_xml_dropped",
    "Osmio.C106_osc_read",
    "Osmio.C106_xml_read_fails"
   ],
   "note": "For every sink and all objects, with both writers (C106_xml, C106_osc). What the sink has when the writer is gone: C106_osc_dropped, C106_xml_dropped. Read back: C106_osc_read (an iff). Partial because of XML: the end tag is written again when the returned writer is dropped, so the reader panics after the last object (C106_xml_read_fails). C106_any_xml, C106_any_osc: over every implementation of Write; C106_steady_xml, C106_steady_osc: exact for one that never fails."
  },
  {
   "property": "C107",
   "status": "proved",
   "theorems": [
    "Osmio.C107_loops",
    "Osmio.C107_left",
    "Osmio.C107_shows",
    "Osmio.C107_pbf",
    "Osmio.C107_xml",
    "Osmio.C107_streams"
   ],
   "note": "For every reader, panics included (C107_loops, C107_left, C107_shows); what the loops show of any bytes: C107_pbf (both readers of objects), C107_xml (XML and change files); C107_streams over every implementation of Read. These are the iterators of the trait; the methods of the same names that the owned-string reader has itself are C43, C44 and C105."
  },
  {
   "property": "C108",
   "status": "proved",
   "theorems": [
    "Osmio.C108_changesets",
    "Osmio.C108_objects",
    "Osmio.C108_structs",
    "Osmio.C108_several",
    "Osmio.C108_timestamps"
   ],
   "note": "Objects, nodes, ways and relations of all three families, both forms (C108_objects, C108_structs); several objects on lines of their own (C108_several); timestamps (C108_timestamps); changesets, whatever the order of their map of tags (C108_changesets). The tables of Unicode by which a character is shown as it is are a parameter."
  },
  {
   "property": "C109",
   "status": "partial",
   "theorems": [
    "Osmio.C109_only_what_is_shown",
    "Osmio.C109_xml_shows_all_partial",
    "Osmio.C109_osc_shows_all_partial",
    "Osmio.C109_headers_partial",
    "Osmio.C109_fails",
    "Osmio.C109_headers_fails"
   ],
   "note": "Dependence on the getters only: C109_only_what_is_shown, in full, for any sink with any faults and any state of the writer. That different objects are written differently: exact for XML and OSC writers on a sink without faults, for objects with versions (others make write_obj panic, C26) and timestamps that are instants or texts without a double quote (C109_xml_shows_all_partial, C109_osc_shows_all_partial); with headers that differ, if there is no equals sign in their keys (C109_headers_partial). For timestamps with double quotes it is false: C109_fails has a node without and one with a position that are written alike; and so it is for keys of headers with an equals sign (C109_headers_fails)."
  },
  {
   "property": "C110",
   "status": "proved",
   "theorems": [
    "Osmio.C110_xml",
    "Osmio.C110_osc",
    "Osmio.C110_killed_xml",
    "Osmio.C110_killed_osc",
    "Osmio.C110_pbf_owned",
    "Osmio.C110_pbf_shared",
    "Osmio.C110_rewrite",
    "Osmio.C110_edit"
   ],
   "note": "Exact for both formats and all sinks and sources: C110_xml, C110_osc (histories of calls), C110_killed_xml, C110_killed_osc (every proper beginning of the document, i.e. the writing process killed at any byte), C110_pbf_owned, C110_pbf_shared (a PBF file, complete or not, converted), C110_rewrite (an XML or change file, complete or not, rewritten), C110_edit (a PBF file edited on the way; EditEx.scripts_keep and the last examples meet its hypotheses). Assumed as in C27 and C28: versions (others make write_obj panic, C26), header names and values that form one element, timestamps without a double quote; for the killed writer the objects can be written without loss. The loops over any source are C81_xml_loop and C81_pbf_loop."
  }
 ]
}