{"id": "C01", "title": "Degrees round trip exactly", "statement": "For every coordinate value, converting it to f64 degrees and back with TryFrom<f64> succeeds and returns the same coordinate.", "quantifier": "all 2^32 inner values of Lat and of Lon", "why_tests_cant": "The claim is about IEEE rounding of a division followed by a multiplication for every 32 bit value; a test samples a few.", "anchors": ["src/lib.rs: lat_lon_inner_to_degrees", "src/lib.rs: lat_lon_impl! degrees, TryFrom<f64>"]}
{"id": "C02", "title": "Printed coordinates are exact and parse back", "statement": "Display of a coordinate prints exactly the decimal value inner/10^7 (no more than seven decimals, no exponent, no trailing zeros), and FromStr of that text returns the same coordinate.", "quantifier": "all 2^32 inner values", "why_tests_cant": "It needs the shortest-digits printer and the correctly rounded parser to compose for every value, not just for tested ones.", "anchors": ["src/lib.rs: Display for Lat/Lon", "src/lib.rs: FromStr for Lat/Lon"]}
{"id": "C03", "title": "Coordinate conversion is exact nearest-unit rounding with a range check", "statement": "TryFrom<f64>/FromStr return Ok(c) only when the given number of degrees is within half a unit (plus one float rounding error) of c, return TooLarge/TooSmall exactly when the rounded product leaves the i32 range, and never wrap around. A value that is not a number is rejected.", "quantifier": "all f64 values, including infinities, NaN, subnormals and signed zeros, and all strings", "why_tests_cant": "The domain is 2^64 floats; edge cases sit at boundaries that example tests miss (NaN is in fact accepted as 0).", "anchors": ["src/lib.rs: TryFrom<f64>, FromStr, ParseLatLonError"]}
{"id": "C04", "title": "Coordinate order is preserved", "statement": "The order of coordinates is the order of their degrees, and TryFrom<f64> is monotone: a larger number of degrees never gives a smaller coordinate.", "quantifier": "all pairs of coordinates and all pairs of finite f64 values", "why_tests_cant": "Monotonicity relates every pair of inputs.", "anchors": ["src/lib.rs: derive(PartialOrd, Ord) on Lat/Lon", "src/lib.rs: degrees, TryFrom<f64>"]}
{"id": "C05", "title": "set_lat_lon is atomic", "statement": "set_lat_lon either returns Ok and stores both new values, or returns an error and leaves the node exactly as it was; it never stores only one half, and it never touches any other field.", "quantifier": "all nodes of all object families and all pairs of inputs, whichever of the two fails", "why_tests_cant": "Every combination of old state and failing input must be covered.", "anchors": ["src/lib.rs: Node::set_lat_lon, unset_lat_lon, set_lat_lon_direct"]}
{"id": "C06", "title": "Epoch timestamps survive ISO formatting", "statement": "Formatting an epoch timestamp as an ISO string and reading that string back as an epoch number gives the same number.", "quantifier": "all i64 epoch numbers", "why_tests_cant": "Calendar arithmetic must be right for every second, and the narrowing casts only show outside the usual range.", "anchors": ["src/lib.rs: TimestampFormat::to_iso_string, to_epoch_number", "src/utils.rs: epoch_to_iso, iso_to_epoch"]}
{"id": "C07", "title": "ISO strings name the right calendar instant", "statement": "The ISO string of an epoch number is the 20 character form YYYY-MM-DDThh:mm:ssZ with a valid proleptic Gregorian date and time of day, and the number of seconds from 1970-01-01T00:00:00Z to that civil time is the epoch number.", "quantifier": "all epoch numbers in the i32 range", "why_tests_cant": "Leap years and month lengths must be right for every day.", "anchors": ["src/utils.rs: epoch_to_iso", "src/lib.rs: Display for TimestampFormat"]}
{"id": "C08", "title": "Timestamp equality is an equivalence relation", "statement": "== on timestamps is reflexive, symmetric and transitive, as the Eq impl promises.", "quantifier": "all triples of timestamps, in either representation", "why_tests_cant": "Transitivity quantifies over triples of arbitrary strings and numbers.", "anchors": ["src/lib.rs: impl PartialEq for TimestampFormat, derive(Eq)"]}
{"id": "C09", "title": "Timestamp ordering is consistent", "statement": "partial_cmp always returns a result, is Equal exactly when ==, is reversed when the arguments are swapped, and orders timestamps chronologically whichever representation they are in.", "quantifier": "all pairs (and triples) of timestamps in either representation", "why_tests_cant": "An order law ranges over all pairs and triples.", "anchors": ["src/lib.rs: impl PartialOrd for TimestampFormat"]}
{"id": "C10", "title": "Parsing a timestamp normalises the time zone", "statement": "TimestampFormat::from_str accepts exactly RFC 3339 date-times and returns the epoch number of that instant: two strings naming the same instant in different zones give equal timestamps. Any other text is refused with the error \"invalid date\".", "quantifier": "all valid civil date-times and all offsets, and all strings", "why_tests_cant": "The number of date/offset combinations is unbounded for tests.", "anchors": ["src/lib.rs: impl FromStr for TimestampFormat", "src/utils.rs: iso_to_epoch"]}
{"id": "C11", "title": "Tags behave like an insertion ordered map", "statement": "Starting from a freshly built object, after any sequence of set_tag and unset_tag calls: tag(k) is the last value set for k and not since unset, has_tag agrees, tags() lists every present key exactly once in the order of first insertion since the key was last absent, and num_tags/tagged/untagged agree with it.", "quantifier": "all finite sequences of set_tag/unset_tag, all keys and values, for node, way and relation in every object family", "why_tests_cant": "An operation history of any length must be covered.", "anchors": ["src/obj_types/string_types.rs: set_tag, unset_tag, tag, tags", "src/obj_types/arc_types.rs", "src/obj_types/rc_types.rs", "src/lib.rs: OSMObjBase"]}
{"id": "C12", "title": "unset_tag removes the tag", "statement": "After unset_tag(k), has_tag(k) is false and every other key's tag is unchanged.", "quantifier": "all objects, including those produced by readers", "why_tests_cant": "Readers can produce any tag list, also with repeated keys.", "anchors": ["src/obj_types/arc_types.rs: unset_tag", "src/obj_types/rc_types.rs: unset_tag", "src/obj_types/string_types.rs: unset_tag"]}
{"id": "C13", "title": "Accessors are independent lenses", "statement": "For every setter of id, version, deleted, changeset, timestamp, uid, user, lat_lon, nodes and members: the matching getter returns what was set, and every other getter is unchanged.", "quantifier": "all objects of the nine concrete types and three sum types, all values", "why_tests_cant": "The implementation is nine hand-copied blocks; a swapped field in one shows only for particular values.", "anchors": ["src/obj_types/string_types.rs", "src/obj_types/arc_types.rs", "src/obj_types/rc_types.rs"]}
{"id": "C14", "title": "strip_metadata removes who and keeps what", "statement": "After strip_metadata an object has no uid, user or changeset, and its id, version, deleted flag, timestamp, tags, location, nodes and members are unchanged; a second call changes nothing.", "quantifier": "all objects of all types", "why_tests_cant": "Frame condition over every field of every object.", "anchors": ["src/lib.rs: OSMObjBase::strip_metadata"]}
{"id": "C15", "title": "Converting shared objects to owned objects loses nothing", "statement": "Converting an Rc or Arc object to a String object keeps the object type, id, version, deleted, changeset, timestamp, uid, user, location, tag list, nodes and members.", "quantifier": "all Rc/Arc objects, also with repeated tag keys", "why_tests_cant": "Ranges over all tag lists and field values.", "anchors": ["src/obj_types/mod.rs: From impls"]}
{"id": "C16", "title": "Object kind is coherent", "statement": "For every object exactly one of is_node/is_way/is_relation is true, it agrees with object_type, and exactly the corresponding as_*/into_* returns Some, with the same contents.", "quantifier": "all objects of all families", "why_tests_cant": "Coherence of many independent matches over all objects.", "anchors": ["src/lib.rs: OSMObj, OSMObjectType", "src/obj_types/arc_types.rs: impl OSMObj", "src/obj_types/rc_types.rs: impl OSMObj", "src/obj_types/string_types.rs: impl OSMObj"]}
{"id": "C17", "title": "Kind iterators partition the object stream", "statement": "For the default reader trait, nodes(), ways() and relations() yield exactly the nodes, ways and relations of objects(), in order: nothing is lost, invented or reordered.", "quantifier": "all readers and all object sequences of any length", "why_tests_cant": "Streams are unbounded.", "anchors": ["src/lib.rs: OSMReader::nodes, ways, relations, OSMObjectIterator"]}
{"id": "C18", "title": "Object type names parse back", "statement": "Display and name_long of an object type are node, way and relation, name_short and Debug are n, w and r; all of them parse back to it, exactly the documented spellings are accepted, any other text or character is refused with an error that quotes it, and the order is Node < Way < Relation.", "quantifier": "all object types, all chars and all strings", "why_tests_cant": "Rejection must hold for every other string.", "anchors": ["src/lib.rs: OSMObjectType"]}
{"id": "C19", "title": "Closed ways and areas", "statement": "is_closed holds exactly when the way has a first and last node and they have the same id; is_area holds exactly when it is closed and is not tagged area=no.", "quantifier": "all ways, all node lists and tag lists", "why_tests_cant": "Node lists of any length.", "anchors": ["src/lib.rs: Way::is_closed, is_area"]}
{"id": "C20", "title": "tags_json_string is valid JSON for the tag map", "statement": "tags_json_string is a JSON object text which decodes to exactly the object's tag map, with each key once in ascending order, whatever characters keys and values contain; it is {} for untagged objects.", "quantifier": "all objects and all Unicode strings", "why_tests_cant": "Escaping must be right for every string.", "anchors": ["src/lib.rs: OSMObjBase::tags_json_string"]}
{"id": "C21", "title": "XML escaping is safe and lossless", "statement": "Escaped text contains no raw <, >, quote or apostrophe and no & that does not begin one of the five entities, and unescaping it gives the original text.", "quantifier": "all Unicode strings", "why_tests_cant": "Ranges over all strings.", "anchors": ["src/xml/mod.rs: write_xml_escaped"]}
{"id": "C22", "title": "Writer life cycle", "statement": "After close succeeds is_open is false; from then on write_obj and set_header return AlreadyClosed and add nothing to the output; set_header after the first object returns AlreadyStarted; is_open is true before.", "quantifier": "all sequences of set_header, write_obj, close, is_open on XML and OSC writers", "why_tests_cant": "Histories are unbounded.", "anchors": ["src/xml/mod.rs: XMLWriter", "src/osc/mod.rs: OSCWriter", "src/lib.rs: OSMWriter"]}
{"id": "C23", "title": "An XML writer produces exactly one document", "statement": "Whatever calls are made before the writer is dropped, the output is one XML prolog and <osm> start tag, then each written object once in order, then exactly one </osm>.", "quantifier": "all call histories ending in drop, any objects", "why_tests_cant": "The history (explicit close, repeated close, from_iter, then drop) is what matters.", "anchors": ["src/xml/mod.rs: XMLWriter::close, ensure_header, Drop", "src/lib.rs: OSMWriter::from_iter"]}
{"id": "C24", "title": "An OSC writer produces exactly one document", "statement": "Whatever calls are made before the writer is dropped, the output is one prolog, <osmChange><modify>, each written object once in order, then exactly one </modify></osmChange>.", "quantifier": "all call histories ending in drop, any objects", "why_tests_cant": "Unbounded histories.", "anchors": ["src/osc/mod.rs: OSCWriter::close, ensure_header, Drop"]}
{"id": "C25", "title": "Write errors never corrupt what was written", "statement": "If the underlying sink fails at any point, the call reports an I/O error, what has reached the sink is a prefix of the text the call would have written, the writer does not become closed, and calls that return Ok have written their whole text.", "quantifier": "all fault schedules of the sink, all histories", "why_tests_cant": "Every crash point.", "anchors": ["src/xml/mod.rs: XMLWriter", "src/osc/mod.rs: OSCWriter"]}
{"id": "C26", "title": "write_obj does not panic", "statement": "write_obj returns a result for every object.", "quantifier": "all objects, including those without a version", "why_tests_cant": "Objects lacking optional metadata are legal and reachable by the public builders.", "anchors": ["src/xml/mod.rs: XMLWriter::write_obj", "src/osc/mod.rs: OSCWriter::write_obj"]}
{"id": "C27", "title": "XML write then read is lossless", "statement": "Reading the document an XML writer produced for a list of objects yields those objects in order, with equal ids, versions, flags, users, uids, changesets, timestamps, coordinates, tags, node lists and members.", "quantifier": "all lists of versioned objects whose text is XML representable", "why_tests_cant": "Ranges over lists of objects with arbitrary text; needs the composition of escaping, number printing and parsing.", "anchors": ["src/xml/mod.rs: XMLWriter, XMLReader"]}
{"id": "C28", "title": "OSC write then read is lossless", "statement": "Reading the document an OSC writer produced for a list of objects yields those objects in order with equal contents.", "quantifier": "all lists of versioned objects whose text is XML representable", "why_tests_cant": "As for XML.", "anchors": ["src/osc/mod.rs: OSCWriter, OSCReader"]}
{"id": "C29", "title": "Document headers appear once with their last value", "statement": "Every header set before writing appears exactly once in the root element with its last value, in whatever order the map iterates, and reading the document's root element gives it back.", "quantifier": "all sequences of set_header, all iteration orders", "why_tests_cant": "Hash map order is unspecified.", "anchors": ["src/xml/mod.rs: XMLWriter::set_header, ensure_header"]}
{"id": "C30", "title": "The XML reader yields every object once, in order", "statement": "For every document, each node, way and relation element yields one object, in document order, whatever other elements, text or comments surround them.", "quantifier": "all event sequences", "why_tests_cant": "Documents are unbounded.", "anchors": ["src/xml/mod.rs: XMLReader::next", "src/osc/mod.rs: OSCReader::next"]}
{"id": "C31", "title": "Attribute order does not matter", "statement": "Reordering the attributes of any element does not change the objects read.", "quantifier": "all elements and all permutations of their attributes", "why_tests_cant": "All permutations of all attribute lists.", "anchors": ["src/xml/mod.rs: get_xml_attribute, node_xml_elements_to_osm_obj, ..."]}
{"id": "C32", "title": "Way nodes, members and tags keep document order", "statement": "The nodes of a way, members of a relation and tags of an object are those of its well formed child elements, in document order; malformed children are skipped without affecting the others.", "quantifier": "all child lists", "why_tests_cant": "Unbounded lists, malformed entries anywhere.", "anchors": ["src/xml/mod.rs: get_tags, get_nodes, get_members"]}
{"id": "C33", "title": "A node without a position does not end the stream", "statement": "An object that cannot be fully read (for example a deleted node without lat/lon, which the writer itself emits) does not make the reader report the end of the file while later objects remain.", "quantifier": "all documents", "why_tests_cant": "Depends on where in the stream such an object is.", "anchors": ["src/xml/mod.rs: node_xml_elements_to_osm_obj, XMLReader::next"]}
{"id": "C34", "title": "OSC and XML readers agree", "statement": "The OSC reader and the XML reader return the same objects for the same stream of elements.", "quantifier": "all event sequences", "why_tests_cant": "Two hand-copied loops.", "anchors": ["src/xml/mod.rs: XMLReader::next", "src/osc/mod.rs: OSCReader::next"]}
{"id": "C35", "title": "Delta coded ids are running sums", "statement": "The node ids of a way, member ids of a relation and ids of dense nodes are the running sums of the stored deltas, and an encoder that stores differences is inverted exactly.", "quantifier": "all lists of any length whose running sums fit in i64", "why_tests_cant": "Lists of any length.", "anchors": ["src/stringpbf/mod.rs: decode_dense_nodes, decode_ways, decode_relations", "src/arcpbf/mod.rs"]}
{"id": "C36", "title": "Dense node coordinates follow the format definition", "statement": "The coordinates of the i-th dense node are offset + granularity * (running sum) nanodegrees, expressed in units of 100 nanodegrees.", "quantifier": "all blocks with any granularity and offset", "why_tests_cant": "All granularity/offset combinations and all lists.", "anchors": ["src/stringpbf/mod.rs: decode_dense_nodes", "src/stringpbf/node_id_pos.rs", "src/arcpbf/mod.rs: decode_dense_nodes"]}
{"id": "C37", "title": "Dense node timestamps follow the format definition", "statement": "The timestamp of the i-th dense node is (running sum of deltas) * date_granularity milliseconds; of a way or relation it is the stored value * date_granularity milliseconds.", "quantifier": "all blocks with any date_granularity", "why_tests_cant": "All granularities and lists.", "anchors": ["src/stringpbf/mod.rs: decode_dense_nodes, decode_ways, decode_relations"]}
{"id": "C38", "title": "Dense tags belong to the right node", "statement": "Every dense node has exactly the tags of its own zero terminated segment of keys_vals, in order; nodes have no tags when keys_vals is empty.", "quantifier": "all tag assignments to any number of nodes", "why_tests_cant": "A segmentation error shifts tags only for some shapes.", "anchors": ["src/stringpbf/mod.rs: decode_dense_nodes", "src/arcpbf/mod.rs: decode_dense_nodes"]}
{"id": "C39", "title": "Way and relation contents are decoded faithfully", "statement": "Ways and relations have the metadata, tags, nodes and members their message stores, resolved through the string table.", "quantifier": "all well formed blocks", "why_tests_cant": "Arbitrary blocks.", "anchors": ["src/stringpbf/mod.rs: decode_ways, decode_relations", "src/arcpbf/mod.rs"]}
{"id": "C40", "title": "Visible defaults to true", "statement": "An object whose message has no visible flag is not reported as deleted, for nodes, ways and relations alike.", "quantifier": "all blocks", "why_tests_cant": "Optional field in every combination.", "anchors": ["src/stringpbf/mod.rs: decode_dense_nodes, decode_ways, decode_relations", "src/arcpbf/mod.rs"]}
{"id": "C41", "title": "A PBF file's objects are the concatenation of its blocks", "statement": "Iterating a PBF file yields, in order, the objects of every data block, each exactly once, skipping blocks of other types, for any number of blocks and any interleaving of next() calls.", "quantifier": "all files with any number of blocks", "why_tests_cant": "Unbounded block sequences with a buffer carried between calls.", "anchors": ["src/stringpbf/mod.rs: PBFReader::next, FileReader", "src/arcpbf/mod.rs"]}
{"id": "C42", "title": "A truncated PBF file never yields wrong objects", "statement": "If a file is cut at any byte, the reader yields a prefix of the objects of the complete file, then either ends or fails; it ends without failing only when the cut is at (or at most three bytes past) a block boundary.", "quantifier": "all files and all cut points", "why_tests_cant": "Every crash point of every file.", "anchors": ["src/stringpbf/mod.rs: FileReader::get_next_osmdata_blob", "src/arcpbf/mod.rs"]}
{"id": "C43", "title": "Kind filters select exactly that kind", "statement": "PBFReader::nodes(), ways() and relations() yield exactly the nodes, ways and relations that objects() yields, in order.", "quantifier": "all files", "why_tests_cant": "All block structures.", "anchors": ["src/stringpbf/mod.rs: PBFReader::nodes, ways, relations, decode_primitive_group_to_objs"]}
{"id": "C44", "title": "A kind iterator does not affect later reads", "statement": "After a kind iterator is dropped, objects()/next() again yields objects of all kinds.", "quantifier": "all files, all points at which the iterator is dropped", "why_tests_cant": "Depends on the interleaving of calls.", "anchors": ["src/stringpbf/mod.rs: PBFReader::nodes, ways, relations"]}
{"id": "C45", "title": "Both PBF readers agree", "statement": "On every file both accept, the shared-string reader and the owned-string reader yield the same objects (after conversion), in the same order.", "quantifier": "all files", "why_tests_cant": "Two independent implementations over all inputs.", "anchors": ["src/stringpbf/mod.rs", "src/arcpbf/mod.rs", "src/obj_types/mod.rs"]}
{"id": "C46", "title": "The node position reader agrees with the object reader", "statement": "PBFNodePositionReader yields exactly (id, lat, lon) of the nodes the object reader yields, in order.", "quantifier": "all files", "why_tests_cant": "Two implementations over all inputs.", "anchors": ["src/stringpbf/node_id_pos.rs", "src/stringpbf/mod.rs"]}
{"id": "C47", "title": "Uncompressed blobs are readable", "statement": "A data block stored with the raw encoding gives the same objects as the same block stored with zlib.", "quantifier": "all blocks", "why_tests_cant": "Holds or fails by encoding for every content.", "anchors": ["src/stringpbf/mod.rs: blob_raw_data", "src/arcpbf/mod.rs: blob_raw_data"]}
{"id": "C48", "title": "Blocks with several groups are readable", "statement": "A block with any number of primitive groups yields the objects of all its groups, in order.", "quantifier": "all blocks", "why_tests_cant": "Any number of groups.", "anchors": ["src/stringpbf/mod.rs: decode_block_to_objs", "src/arcpbf/mod.rs"]}
{"id": "C49", "title": "Optimised and debug builds agree on valid data", "statement": "Whenever no intermediate value overflows its integer type, builds with and without overflow checks give the same objects; when one does overflow the checked build fails instead of returning wrong values.", "quantifier": "all blocks, both build modes", "why_tests_cant": "All integer combinations.", "anchors": ["src/stringpbf/mod.rs", "src/arcpbf/mod.rs"]}
{"id": "C50", "title": "PBF messages decode what was encoded", "statement": "Parsing the wire encoding of any OSM PBF message gives that message back, including packed repeated fields, negative numbers and default values, and unknown fields are skipped.", "quantifier": "all messages, all field values", "why_tests_cant": "All 64 bit values and message shapes.", "anchors": ["src/stringpbf/osmformat.rs", "src/stringpbf/fileformat.rs"]}
{"id": "C51", "title": "Exhausted readers stay exhausted", "statement": "Once a PBF reader has reported the end of the file, every later call reports the end again.", "quantifier": "all files, any number of extra calls", "why_tests_cant": "Unbounded histories.", "anchors": ["src/stringpbf/mod.rs: PBFReader::next"]}
{"id": "C52", "title": "The changeset reader yields every changeset once, in order", "statement": "For a well formed changeset dump, ChangesetReader yields one changeset per element, with or without children, in order, with its attributes and all its tags.", "quantifier": "all well formed dumps of any length", "why_tests_cant": "Unbounded documents.", "anchors": ["src/changesets.rs: ChangesetReader::next_changeset"]}
{"id": "C53", "title": "The changeset tag reader yields every tagged changeset once, in order", "statement": "ChangesetTagReader yields (id, tags) for every changeset element with an end tag, in order, with the tags in document order, and skips elements without children.", "quantifier": "all well formed dumps", "why_tests_cant": "Unbounded documents.", "anchors": ["src/changesets.rs: ChangesetTagReader::next_tag"]}
{"id": "C54", "title": "Both changeset readers agree on ids and tags", "statement": "For every tagged changeset both readers report the same id and the same tag map.", "quantifier": "all well formed dumps with ids below 2^32", "why_tests_cant": "Two implementations.", "anchors": ["src/changesets.rs"]}
{"id": "C55", "title": "Changeset readers terminate on every input", "statement": "Every call returns after finitely many steps, whatever the input, also when the file is cut inside a changeset.", "quantifier": "all event sequences and cut points", "why_tests_cant": "Non-termination cannot be observed by a test.", "anchors": ["src/changesets.rs: next_changeset, next_tag"]}
{"id": "C56", "title": "A changeset never inherits another's data", "statement": "The id and tags reported for a changeset come from that changeset's own element.", "quantifier": "all event sequences, also elements lacking an id", "why_tests_cant": "Depends on the history of previous elements.", "anchors": ["src/changesets.rs: ChangesetTagReader::next_tag, curr_id"]}
{"id": "C57", "title": "Malformed changesets are errors", "statement": "A changeset lacking a required attribute (id, created_at, open, num_changes, comments_count) or with an unparsable one gives an error, not a made-up value.", "quantifier": "all changeset elements", "why_tests_cant": "All subsets of attributes.", "anchors": ["src/changesets.rs: next_changeset, ChangesetBuilder"]}
{"id": "C58", "title": "OPL strings round trip", "statement": "decode_string(encode_string(s)) = s. (src/opl/mod.rs is not compiled into the crate at this commit; the property is kept because the README lists OPL.)", "quantifier": "all Unicode strings", "why_tests_cant": "All strings.", "anchors": ["src/opl/mod.rs: encode_string, decode_string"]}
{"id": "C59", "title": "The node store is a map", "statement": "After any sequence of set calls, get(id) returns the position last set for id and None for ids never set, whatever the capacity of the writer's buffer, once the writer has been dropped; if the process ends between two calls instead, all but the last set are in the file. (src/nodestore.rs is not compiled into the crate at this commit.)", "quantifier": "all sequences of set/get", "why_tests_cant": "Histories are unbounded.", "anchors": ["src/nodestore.rs"]}
{"id": "C60", "title": "Node chains round trip", "statement": "Decoding an encoded chain of node ids gives the chain back. Encoding panics only for two neighbours whose signed difference does not fit into 64 bits, and only in a build that checks for overflow. (src/nodechain.rs is not compiled into the crate at this commit.)", "quantifier": "all lists of ids", "why_tests_cant": "Lists of any length and any differences.", "anchors": ["src/nodechain.rs"]}
{"id": "C61", "title": "Builders", "statement": "However StringNodeBuilder, StringWayBuilder and StringRelationBuilder are used, build() fails exactly if no id was given, and otherwise gives an object in which every field has the value given last for it, or its default (no metadata, not deleted, no tags, no position, no nodes, no members) if none was given. ChangesetBuilder's build() fails exactly if one of id, created, open, tags, num_changes and comments_count was not given, and otherwise every field has the value given last for it; closed, uid and user have none if none was given.", "quantifier": "all sequences of setter calls", "why_tests_cant": "Any sequence of setters in any order, with any values.", "anchors": ["src/obj_types/string_types.rs: StringNode, StringWay, StringRelation (derive Builder)", "src/changesets.rs: Changeset (derive Builder)"]}
{"id": "C62", "title": "XML errors surface", "statement": "A malformed, truncated or non-UTF-8 document is never silently accepted by the XML reader: reading never gets past the error without a panic, so if next() consumed the whole document it panicked.", "quantifier": "all byte strings, any number of next() calls", "why_tests_cant": "Any document cut or damaged at any place.", "anchors": ["src/xml/mod.rs: XMLReader::next"]}
{"id": "C63", "title": "PBF readers do not mistake I/O errors for the end of the file", "statement": "If the source reports an error at any point, a PBF reader does not report the end of the file as if all of it had been read: it fails.", "quantifier": "all files, all points at which the source fails", "why_tests_cant": "Every fault point of every file.", "anchors": ["src/stringpbf/mod.rs: FileReader::get_next_osmdata_blob", "src/arcpbf/mod.rs: FileReader::get_next_osmdata_blob", "src/stringpbf/node_id_pos.rs"]}
{"id": "C64", "title": "Well formed XML never makes a reader panic", "statement": "On every well formed XML document without document type, whatever its elements and attributes and however it is laid out, every call of next of the XML and OSC readers returns (an object or None) instead of panicking.", "quantifier": "all texts of the XML grammar, any number of calls", "why_tests_cant": "The texts and layouts are unbounded; a panic could hide in any combination of missing or odd attributes and nesting.", "anchors": ["src/xml/mod.rs: XMLReader::next, xml_elements_to_osm_obj", "src/osc/mod.rs: OSCReader::next"]}
{"id": "C65", "title": "A PBF reader gets through every block that keeps to the format", "statement": "Whatever optional parts a block leaves out (metadata, the visible flag, tags), however its nodes are stored (dense or plain) and however many groups it has, the PBF readers decode it without panicking.", "quantifier": "all primitive blocks the file format allows, both readers of objects and the reader of positions, builds with and without overflow checks", "why_tests_cant": "The combinations of optional fields, list lengths and string table positions are unbounded; a panic hides in any missing part.", "anchors": ["src/stringpbf/mod.rs: decode_block, decode_dense_nodes, decode_ways, decode_relations", "src/arcpbf/mod.rs: decode_block, decode_dense_nodes, decode_ways, decode_relations", "src/stringpbf/node_id_pos.rs: PBFNodePositionReader"]}
{"id": "C66", "title": "Single precision coordinates convert exactly", "statement": "Converting an f32 number of degrees gives exactly the nearest unit of 10^-7 degrees (half way cases away from zero), or the too large / too small error exactly when that unit does not fit; infinities are errors.", "quantifier": "all 2^32 f32 bit patterns except NaNs (see C03), latitudes and longitudes", "why_tests_cant": "Four thousand million inputs, and exactness depends on no intermediate rounding ever happening.", "anchors": ["src/lib.rs: TryFrom<f32> for Lat and Lon"]}
{"id": "C67", "title": "Coordinate text is read as the number it stands for", "statement": "Text is accepted as a coordinate exactly if it is a decimal number (or a word for infinity or NaN); a number that is a whole count of units is read exactly, however it is written; any other number becomes the nearest unit up to 2^-20 of a unit, range errors are only for numbers out of range, and reading keeps the order.", "quantifier": "all strings", "why_tests_cant": "The texts are unbounded in length and form; two roundings could add up for some of them.", "anchors": ["src/lib.rs: FromStr for Lat and Lon"]}
{"id": "C68", "title": "OPL lines decode to the object they describe", "statement": "Every line of the OPL format is decoded to the object it describes, and a reader yields the objects of all lines of a file once, in order.", "quantifier": "all objects, all ways of writing them in the format, all files", "why_tests_cant": "Objects, escapes and files are unbounded.", "anchors": ["src/opl/mod.rs: decode_line, OPLReader::next (not compiled into the crate)"]}
{"id": "C69", "title": "The changeset tags program stores all changesets or none", "statement": "At every moment of a run of osmio-changeset-tags-to-sqlite, and whatever goes wrong or whenever it is killed, a new database holds no rows or exactly one row per changeset (element with an end tag) of the source, with its id and a JSON text that decodes to its tags in order; success is reported only in the second case and an error only in the first; it succeeds exactly if the source has no errors and no repeated id; a file that already exists is not touched, nor any other than the one named; with an argument missing or a source that cannot be opened nothing is touched; every run ends.", "quantifier": "all sources, arguments and disks, all schedules of failing database operations, all crash points", "why_tests_cant": "Crash points and failure schedules are unbounded, and so are sources.", "anchors": ["src/bin/osmio-changeset-tags-to-sqlite.rs: main", "src/changesets.rs: ChangesetTagReader"]}
{"id": "C70", "title": "The changeset tags program reports the most popular keys", "statement": "A successful run prints the number of changesets stored, the number of different keys, and then the keys that occur at least once per thousand changesets, with their exact number of occurrences and percentage, the most frequent first, at most a hundred; any other run prints none of this.", "quantifier": "all sources, all schedules of failing operations", "why_tests_cant": "Sources and numbers of keys are unbounded.", "anchors": ["src/bin/osmio-changeset-tags-to-sqlite.rs: main"]}
{"id": "C71", "title": "Numbers in attributes are read as the numbers they stand for", "statement": "An attribute (or OPL field) that holds an id, version, user id, changeset id or count is read as the number its text stands for in decimal notation: an optional plus sign (for ids and changeset user ids also a minus sign), at least one digit, leading zeros allowed, nothing else. A text that is not such a number, or whose number does not fit the type (i64, u32, u64), is treated as not a number, never as another number.", "quantifier": "all texts", "why_tests_cant": "There are unboundedly many texts; the limits of the three integer types and every possible stray character matter.", "anchors": ["src/xml/mod.rs: node_xml_elements_to_osm_obj, way_xml_elements_to_osm_obj, relation_xml_elements_to_osm_obj, get_nodes, get_members", "src/changesets.rs: next_changeset, next", "src/opl.rs: decode_line"]}
{"id": "C72", "title": "Debug text of a coordinate is exact", "statement": "The Debug text of a latitude or longitude is a decimal number that stands for exactly inner / 10^7 degrees, it parses back to the same coordinate, and different coordinates have different texts. It is the Display text, with .0 appended if it has no point, unless the coordinate is not zero and smaller than 0.0001 degrees in magnitude, when it is in exponent notation.", "quantifier": "all 2^32 coordinates of either type", "why_tests_cant": "Depends on the shortest digits of every double that is a coordinate, and on a threshold that is itself rounded.", "anchors": ["src/lib.rs: Debug for Lat, Debug for Lon, degrees, from_str"]}
{"id": "C73", "title": "Computed message sizes are the written sizes", "statement": "Writing a protocol buffer message of the crate takes two passes: sizes first, then bytes, with the computed sizes as length prefixes of nested messages. For every message, the computed size is exactly the number of bytes of its encoding according to the .proto files; so writing to bytes succeeds exactly for messages that have all required fields (also in nested messages) and at most 2 GiB, and yields that encoding.", "quantifier": "all values of the fourteen message types, with any nesting and lengths", "why_tests_cant": "Sizes depend on every value in the message through varint lengths, and one wrong size at one boundary corrupts the file or panics.", "anchors": ["src/stringpbf/fileformat.rs: compute_size, write_to_with_cached_sizes, is_initialized", "src/stringpbf/osmformat.rs: compute_size, write_to_with_cached_sizes, is_initialized", "src/arcpbf/fileformat.rs", "src/arcpbf/osmformat.rs"]}
{"id": "C74", "title": "Coordinates, timestamps and object types survive JSON", "statement": "Serialising a latitude, longitude, timestamp or object type to JSON and reading it back yields the same value, and different values have different JSON. A coordinate is the whole number of 10^-7 degree units; a timestamp is an object with the one member ISOString (a string) or EpochNumber (a whole number); an object type is its name as a string. Reading accepts exactly the JSON texts (RFC 8259: any white space, any escapes) for these values, an object type also as an object with its name and null; everything else is an error: fractions, exponents, negative zero, leading zeros, numbers that do not fit, lone surrogates, further members, trailing text.", "quantifier": "all texts, and all values of the four types", "why_tests_cant": "There are unboundedly many texts and escapes for each value.", "anchors": ["src/lib.rs: Lat, Lon, TimestampFormat, OSMObjectType (derive Serialize, Deserialize)"]}
{"id": "C75", "title": "The stream can be taken back from a reader or a writer", "statement": "After n objects have been taken from a reader of PBF files, the stream returned by into_inner (or seen through inner) is at the end of the block with the n-th object and no further, whatever follows it, so that what follows a file is still there to be read; likewise the stream of an XML, change or changeset reader is at the end of the n-th object. A writer gives its sink back from into_inner, with a complete document in it.", "quantifier": "all files of readable blocks, all numbers of objects taken, all data (or failures) after the file; all histories of writer calls and all sinks", "why_tests_cant": "A reader that reads ahead differs only for particular block boundaries and particular numbers of objects.", "anchors": ["src/stringpbf/mod.rs: PBFReader::into_inner, FileReader::into_inner", "src/arcpbf/mod.rs: PBFReader::into_inner", "src/xml/mod.rs: XMLWriter::into_inner", "src/osc/mod.rs: OSCWriter::into_inner", "src/xml/mod.rs: XMLReader::into_inner, inner", "src/osc/mod.rs: OSCReader::into_inner, inner", "src/changesets.rs: ChangesetReader::into_inner, get_ref"]}
{"id": "C76", "title": "A refused coordinate is reported with the number that was given", "statement": "When text or a number is refused as a latitude or longitude, the error tells why: empty text, text that is no number, too large or too small; in the last two cases the error and its message give the number that was refused.", "quantifier": "all texts and all doubles that are refused", "why_tests_cant": "The message depends on the number printed, for every double out of range.", "anchors": ["src/lib.rs: ParseLatLonError, Display for ParseLatLonError, Error::source, FromStr and TryFrom of Lat and Lon"]}
{"id": "C77", "title": "Copying a PBF file to XML or to a change file keeps every object", "statement": "A program that reads objects from a PBF file and writes each to an XML or OSC writer never gets an error or a panic from the writer (whose sink is reliable), and reading the new file gives copies of the same objects in the same order.", "quantifier": "all PBF sources (any bytes, I/O errors included), both PBF readers, both writers, all objects read to the end or to a panic", "why_tests_cant": "Ranges over all files: every combination of missing fields, texts and timestamps.", "anchors": ["src/stringpbf/mod.rs: PBFReader::next", "src/arcpbf/mod.rs: PBFReader::next", "src/xml/mod.rs: XMLWriter, XMLReader", "src/osc/mod.rs: OSCWriter, OSCReader"]}
{"id": "C78", "title": "The sortedness hint never changes what is read", "statement": "Calls of set_sorted_assumption, assume_sorted, assume_unsorted and get_sorted_assumption, at any points of a program, do not change the objects, ends, panics or remaining bytes that its other calls on the reader give. A PBF reader reports the hint it was given last, at first false; XML and OSC readers always report false.", "quantifier": "all sources or documents, all four readers, all sequences of calls", "why_tests_cant": "Ranges over all interleavings of hint calls with reading, on all inputs.", "anchors": ["src/lib.rs: OSMReader::set_sorted_assumption, get_sorted_assumption, assume_sorted, assume_unsorted", "src/stringpbf/mod.rs: PBFReader", "src/arcpbf/mod.rs: PBFReader"]}
{"id": "C79", "title": "Rewriting an XML or change file keeps every object", "statement": "A program that reads the objects of an XML or OSC file and writes them to an XML or OSC writer never gets an error or panic from the writer (whose sink is reliable); reading the new file gives the same objects, equal in every field, in the same order; and rewriting a rewritten file changes nothing, byte for byte.", "quantifier": "all byte strings as input files, both readers, both writers, any number of objects, parsers that leave white space in values alone or turn it into spaces", "why_tests_cant": "Ranges over all files, all texts and all combinations of missing or malformed attributes.", "anchors": ["src/xml/mod.rs: XMLReader::next, XMLWriter", "src/osc/mod.rs: OSCReader::next, OSCWriter"]}
{"id": "C80", "title": "Two objects are equal exactly when they show the same", "statement": "== on objects holds exactly when id, version, deleted, changeset, timestamp (by its own ==), user, uid, tags in order, and position, nodes or members are the same; it is an equivalence relation; equal objects stay equal when the same mutator is called on both or both are converted to owned objects.", "quantifier": "all pairs (triples) of objects of each of the twelve object types, all mutators with all arguments", "why_tests_cant": "Equality is a relation between arbitrary objects in all their stored representations; a test sees a few pairs.", "anchors": ["src/obj_types/string_types.rs: derive(PartialEq)", "src/obj_types/rc_types.rs: derive(PartialEq)", "src/obj_types/arc_types.rs: derive(PartialEq)", "src/lib.rs: OSMObjBase: PartialEq, impl PartialEq for TimestampFormat", "src/arcpbf/mod.rs: decode_dense_nodes"]}
{"id": "C81", "title": "What is read does not depend on how the source hands out its bytes", "statement": "The PBF readers (owned, shared, node positions), the XML and change readers and the two changeset readers return the same objects, errors, panics and end for any two sources with the same bytes and errors, no matter how many bytes each call of read gives, how often it is interrupted, or whether a BufReader of any size is put in front; after the PBF readers the source has the same bytes left. A file inside a longer stream that is limited to the length of the file with Read::take is read like the file alone, and the PBF readers leave what follows it.", "quantifier": "all implementations of Read, all contents, all ways of handing them out, any number of calls", "why_tests_cant": "Tests read from files and slices, which hand out bytes in one way; short reads and interruptions depend on the schedule.", "anchors": ["src/stringpbf/mod.rs: FileReader::get_next_osmdata_blob, PBFReader::next", "src/arcpbf/mod.rs: FileReader::get_next_osmdata_blob, PBFReader::next", "src/stringpbf/node_id_pos.rs: PBFNodePositionReader::next", "src/xml/mod.rs: XMLReader::new, next", "src/osc/mod.rs: OSCReader::new, next", "src/changesets.rs: ChangesetReader::next_changeset, ChangesetTagReader::next_tag"]}
{"id": "C82", "title": "What is written does not depend on how the sink takes its bytes", "statement": "The answers of set_header, write_obj, close and drop of the XML and OSC writers and the bytes that arrive are the same for all sinks that never fail, no matter how few bytes each call of write takes, how often it is interrupted and in which pieces the formatting hands over its text; if the sink fails, what arrived of the text is a beginning of it and the error is returned. On a BufWriter of any size the sink behind it has the document once both have been dropped; the writers never flush, so a document that fits into the buffer is written and closed without an error although that sink has not been asked and may fail.", "quantifier": "all implementations of Write, all cuts of the texts, all histories of calls, both writers, all object families", "why_tests_cant": "Tests write to a vector, which takes everything at once; short writes and interruptions depend on the schedule.", "anchors": ["src/xml/mod.rs: XMLWriter, write_xml_escaped", "src/osc/mod.rs: OSCWriter", "src/lib.rs: OSMWriter"]}
{"id": "C83", "title": "A reader of a source that breaks off gives what was complete and then panics", "statement": "If the source of an XML or change reader fails, or ends in the middle of a document, the reader gives first exactly the objects that it would give for every continuation of the bytes it got, then panics once, and after that says only that there is nothing more. Every object whose element was complete is among them.", "quantifier": "all contents before the fault, all continuations, any number of calls, both readers", "why_tests_cant": "Where a connection breaks or a disk is full is not under the control of a test; there are as many cuts as bytes.", "anchors": ["src/xml/mod.rs: XMLReader::new, XMLReader::next", "src/osc/mod.rs: OSCReader::new, OSCReader::next"]}
{"id": "C84", "title": "A torn XML or change file gives back every object whose text is complete", "statement": "If a file written by the XML or change writer is cut anywhere, then reading it gives exactly the objects for which all bytes that had been written when write_obj returned are in the file, equal in everything, timestamps as text, and then panics.", "quantifier": "all histories of calls with objects that XML can represent, all cuts, all object families, both formats", "why_tests_cant": "A crash can come after any byte of any file.", "anchors": ["src/xml/mod.rs: XMLWriter, XMLReader", "src/osc/mod.rs: OSCWriter, OSCReader"]}
{"id": "C85", "title": "A changeset source that breaks off gives the complete changesets and then an error", "statement": "If the source of a changeset reader or a changeset tag reader fails or ends too early, the calls first give the changesets that were complete, the same as for the whole file, then an error, never the end. The program that stores tags in a database then stores nothing and fails.", "quantifier": "all contents before the failure, all continuations, both readers, any number of calls", "why_tests_cant": "A damaged or half-downloaded file can break at any byte; the answers must agree with those of every possible continuation.", "anchors": ["src/changesets.rs: ChangesetReader::next_changeset, ChangesetTagReader::next", "src/bin/osmio-changeset-tags-to-sqlite.rs: main"]}
{"id": "C86", "title": "Files opened by name read as their contents", "statement": "Opening a file by name fails exactly if the file cannot be opened, whatever it holds. A file that follows its format is read in full: PBF files, XML files compressed with bzip2 or plain, changeset dumps. If decompression fails or ends early, what was complete is delivered and then the failure is shown; a file that is not compressed at all is opened, and the first read shows the failure.", "quantifier": "all file systems, names, contents, decompressors, histories of writes and places where decompression breaks off", "why_tests_cant": "Damage can be at any byte of any file; no list of files covers what must be delivered before the failure.", "anchors": ["src/lib.rs: read_pbf, read_xml", "src/xml/mod.rs: from_filename_bz2, from_filename_uncompressed", "src/stringpbf/mod.rs: PBFReader::from_filename", "src/changesets.rs: ChangesetReader::from_filename, from_bz2_reader, ChangesetTagReader::from_filename"]}
{"id": "C87", "title": "The two example programs show what is in the file", "statement": "osmio-osc-debug prints every object of a change file, in order, and fails if the file is damaged. osmio-pbf-read-speed ends with the number of objects in the file; the lines it prints on the way are true, grow, and lie more than a second apart; a line shows the count with commas, the seconds exact to the millisecond and the rate rounded to three places; for a file that cannot be read it prints no result.", "quantifier": "all arguments, files, clocks and numbers of objects below 2^64", "why_tests_cant": "The programs loop over files of any size and contents, with any timing of the clock.", "anchors": ["src/bin/osmio-osc-debug.rs: main", "src/bin/osmio-pbf-read-speed.rs: main"]}
{"id": "C88", "title": "The tags of a changeset can be edited as a map", "statement": "After any edits of a changeset through tags_mut(), tag(k) is what the last edit about k says, or its old value if none was; num_tags() counts the keys with a value, tagged() and untagged() agree with it; nothing else of the changeset changes.", "quantifier": "all changesets and all finite sequences of insertions, removals and clearings", "why_tests_cant": "It ranges over every history of edits.", "anchors": ["src/changesets.rs: Changeset::tags_mut, tag, has_tag, num_tags, tagged, untagged, into_tags"]}
{"id": "C89", "title": "The XML, change and changeset readers work as a stream", "statement": "The k-th object or changeset is returned as soon as the text up to the end of its element has come, whatever follows, and not before; by then the source has been read to the end of that text and at most one buffer (8 KiB) further. Making a reader reads nothing.", "quantifier": "all implementations of Read and ways of handing out bytes, all texts, all continuations (further text, garbage, failures, the end), all k", "why_tests_cant": "A reader that waits for more than it needs differs only for sources that stop or block at a particular place; files in tests are there as a whole.", "anchors": ["src/xml/mod.rs: XMLReader::new, next, into_inner", "src/osc/mod.rs: OSCReader::new, next, into_inner", "src/changesets.rs: ChangesetReader::new, next_changeset, into_inner, ChangesetTagReader::new, next_tag"]}
{"id": "C90", "title": "The PBF readers ask only for the memory that the file needs", "statement": "In reading a PBF file, the buffers asked for to hold headers and data are no larger than what the file has for them, also when the file is damaged or cut off; and the memory reserved for decompressed data is as large as that data.", "quantifier": "all byte sequences, all three readers, any number of calls of next, also after a panic", "why_tests_cant": "A length in a damaged file can be any number; tests have files whose lengths are right.", "anchors": ["src/stringpbf/mod.rs: FileReader::get_next_osmdata_blob, PBFReader::next", "src/arcpbf/mod.rs: FileReader::get_next_osmdata_blob, blob_raw_data, PBFReader::next", "src/stringpbf/node_id_pos.rs: PBFNodePositionReader::next"]}
{"id": "C91", "title": "Blocks that are not data are passed over", "statement": "In a PBF file a block of another kind than data, known or not, changes nothing of what a reader returns, wherever it is; in particular a file is read the same whatever its header says, and the features that a header requires are not checked.", "quantifier": "all files of whole blocks, all kinds of block, all positions, all continuations (also damaged ones), the three readers", "why_tests_cant": "Test files have one header, at the start; later versions of the format may add kinds of blocks anywhere.", "anchors": ["src/stringpbf/mod.rs: FileReader::get_next_osmdata_blob", "src/arcpbf/mod.rs: FileReader::get_next_osmdata_blob", "src/stringpbf/node_id_pos.rs: PBFNodePositionReader::next"]}
{"id": "C92", "title": "Data blocks may be compressed by any zlib encoder", "statement": "A PBF file whose data blocks hold zlib streams is read as its data says, however the encoder chose to compress it (not at all, with fixed codes, with codes of its own, in any number of blocks, with any repetitions): two files with the same data in their blocks give the same objects, in the same order, and the same end or failure, with each reader; and a well formed file gives exactly its objects.", "quantifier": "all data, all zlib streams of it by RFC 1950/1951, all files of such blocks, all decompressors that undo valid streams, the three readers, both builds", "why_tests_cant": "A test file is compressed by one encoder with one setting; the streams of one string are infinitely many.", "anchors": ["src/stringpbf/mod.rs: blob_raw_data", "src/arcpbf/mod.rs: blob_raw_data", "src/stringpbf/node_id_pos.rs: PBFNodePositionReader::next"]}
{"id": "C93", "title": "Compressed files may have any number of bzip2 streams, by any encoder", "statement": "A file of one or more bzip2 streams is read as the data of all its streams one after the other, whichever encoder made them and wherever it cut them: XML files by name, changeset dumps by name and from a reader, tags of changesets, and the program that stores them. If the file is cut off, or reading it fails, the XML reader gives the first so many objects of the document, at least those complete where a complete stream ends, and then panics, never saying the end before it; changeset readers give the complete changesets of the complete streams and then an error, and the program stores nothing.", "quantifier": "all data, all bzip2 streams of it, all ways to cut it into streams, all places of the damage, all decompressors of one stream that undo valid streams, all written XML documents and all changeset dumps", "why_tests_cant": "A test has one file, of one stream by one encoder; planet dumps have thousands of streams, and where they are cut relative to elements is arbitrary.", "anchors": ["src/xml/mod.rs: from_filename_bz2", "src/lib.rs: read_xml", "src/changesets.rs: ChangesetReader::from_filename, from_bz2_reader", "src/changesets.rs: ChangesetTagReader::from_filename", "src/bin/osmio-changeset-tags-to-sqlite.rs: main"]}
{"id": "C94", "title": "Editing a file changes exactly what was edited", "statement": "A program reads objects, and for each writes any number of edited versions: tags set and removed, attributes set, positions, nodes and members replaced. Each change has exactly its own effect on what the object shows, in all families of objects. If the scripts keep what a written object must have, every call of the XML and of the change-file writer succeeds, and the new file reads back as exactly the edited objects, in order, if and only if their texts have only characters that XML keeps.", "quantifier": "all objects of the three families, all scripts of changes of any length, all choices of what to drop, keep or write more than once, all hash orders, all reliable sinks, both white-space behaviours of the parser", "why_tests_cant": "A test edits one object in one way; that changes do not interfere with each other or with neighbouring objects concerns all sequences of changes and all files.", "anchors": ["src/obj_types/arc_types.rs: set_tag, unset_tag and the other set_ functions", "src/obj_types/rc_types.rs: set_tag, unset_tag and the other set_ functions", "src/obj_types/string_types.rs: set_tag, unset_tag and the other set_ functions", "src/lib.rs: OSMObj::as_node_mut, as_way_mut, as_relation_mut; Node::set_lat_lon_direct; Way::set_nodes; Relation::set_members", "src/xml/mod.rs: XMLWriter::write_obj, OSMReader for XMLReader", "src/osc/mod.rs: OSCWriter::write_obj"]}
{"id": "C95", "title": "Reading ends on every input", "statement": "On every source, however malformed, cut off or failing, each call of next on the PBF readers, the node position reader, the XML and change-file readers and the OPL reader comes back (with an object, the end, or a panic), and a loop over the objects ends after finitely many of them. Decoding a node chain ends on all bytes. No loop inside them can run for ever.", "quantifier": "all sources of bytes with errors anywhere, all states of the readers, all decompressors, both builds", "why_tests_cant": "A loop that never ends is only seen on the input that causes it; one reader of this crate (changesets) has such inputs.", "anchors": ["src/stringpbf/mod.rs: FileReader::get_next_osmdata_blob, PBFReader::next", "src/arcpbf/mod.rs: FileReader::get_next_osmdata_blob, PBFReader::next", "src/stringpbf/node_id_pos.rs: PBFNodePositionReader::next", "src/xml/mod.rs: XMLReader::next", "src/osc/mod.rs: OSCReader::next", "src/opl/mod.rs: OPLReader::next", "src/nodechain.rs: decode_bytes_to_nodes"]}
{"id": "C96", "title": "Files can be joined end to end", "statement": "The concatenation of two files of the same kind is read as the first and then the second: the PBF readers and the reader of node positions give the objects of the first file and then exactly what they give of the second, including how it ends; the changeset readers give the results of the first dump and then those of the second; compressed dumps joined as files are one compressed dump, and the tags-to-SQLite program stores the rows of all of them. The same holds for two sources joined with Read::chain. Joined XML files are not read like that: the objects of the first are given and then the reader panics.", "quantifier": "all files made of well formed frames and all bytes or failing sources after them; all texts with sound markup; any number of documents of any layout; all builds and decompressors", "why_tests_cant": "It relates what is read of every pair of files; state left over from the first file shows only for particular pairs, as for the ids of changesets.", "anchors": ["src/stringpbf/mod.rs: FileReader::get_next_osmdata_blob, PBFReader::next", "src/arcpbf/mod.rs: PBFReader::next", "src/stringpbf/node_id_pos.rs: PBFNodePositionReader::next", "src/changesets.rs: ChangesetReader::next_changeset, ChangesetTagReader::next_tag", "src/xml/mod.rs: XMLReader::next", "src/bin/osmio-changeset-tags-to-sqlite.rs: main"]}
{"id": "C97", "title": "Accessors of the generated messages", "statement": "For every message of the PBF format and any sequence of calls of its accessors (set, clear, the mutable borrow and take), each field shows the value that was last given to it, or, if it has none, the default of the .proto file, and says which of the two is the case; no call touches another field; take returns what the field showed; clear() makes a fresh message, which has no values; a message with one value is encoded with the number and type that the .proto file gives this field. The enumeration of member kinds translates names and numbers as declared and nothing else.", "quantifier": "all fourteen messages, all their fields, all values, all sequences of calls on any message", "why_tests_cant": "The accessors are some two hundred nearly identical functions, of which a swapped pair or a wrong default shows only for particular fields and sequences of calls.", "anchors": ["src/stringpbf/fileformat.rs: BlobHeader, Blob", "src/stringpbf/osmformat.rs: HeaderBlock, HeaderBBox, PrimitiveBlock, Info, ChangeSet, Node, Way, Relation, MemberType", "src/arcpbf/fileformat.rs", "src/arcpbf/osmformat.rs"]}
{"id": "C98", "title": "What any bytes decode to", "statement": "For every message of the PBF format and any bytes whatever, decoding returns a message exactly if the bytes are a sequence of fields by the wire format, every value of a known field is admissible for its type, and the required fields are there; the message then has for each singular field the last value given, for each repeated field all values in the order given, packed or one by one, and nothing from fields with other numbers or wire types. All other bytes are refused.", "quantifier": "all fourteen messages, all byte strings", "why_tests_cant": "Encoders emit one of infinitely many forms that the format allows; the others (repeated singular fields, mixed packing, long numbers, unknown fields and groups anywhere, wrong wire types, cut off values) appear only in files of other programs and in damaged ones.", "anchors": ["src/stringpbf/fileformat.rs: BlobHeader, Blob", "src/stringpbf/osmformat.rs: HeaderBlock, PrimitiveBlock, PrimitiveGroup, StringTable, Info, DenseInfo, Node, DenseNodes, Way, Relation, ChangeSet", "src/arcpbf/fileformat.rs", "src/arcpbf/osmformat.rs"]}
{"id": "C99", "title": "The objects of any bytes", "statement": "For any bytes whatever, a PBF reader gets to the end without an error exactly if the bytes are a sequence of frames with at most three bytes after them, whose headers, blobs and blocks decode by the wire format into parts the reader can read; and it then has given exactly the objects that the fields say: for each object, each getter returns what a formula over the fields of the messages gives (running sums of ids, coordinates and user numbers, texts from the string table, tags in pairs, members side by side), in the order of the file. The same holds for the reader of node positions. No bytes are two different files.", "quantifier": "all byte strings, both PBF readers and the reader of positions, both kinds of builds", "why_tests_cant": "A file has any number of frames, blocks, groups and objects, fields in any order and form, and each getter depends on sums over all objects before.", "anchors": ["src/stringpbf/mod.rs: PBFReader, decode_block_to_objs, blob_raw_data", "src/arcpbf/mod.rs: PBFReader, decode_block_to_objs, blob_raw_data", "src/stringpbf/node_id_pos.rs: PBFNodePositionReader"]}
{"id": "C100", "title": "No data block is left out", "statement": "If a reader gets to the end of a PBF file without an error, it has decoded every data block of the file; a block stored in a form the reader does not know is reported.", "quantifier": "all files, both PBF readers and the reader of positions, both kinds of builds", "why_tests_cant": "A block that is left out shows nothing; only a statement about every frame of every file excludes it.", "anchors": ["src/stringpbf/mod.rs: blob_raw_data, PBFReader::next", "src/arcpbf/mod.rs: blob_raw_data", "src/stringpbf/node_id_pos.rs"]}
{"id": "C101", "title": "Changesets of any bytes", "statement": "For any bytes whatever, well formed or not, the calls of the changeset reader up to Ok(None) return, in the order of the file, exactly: a changeset for each changeset element that can be read, with the last attribute of each name and with the tags in it, and an error for each element that cannot be read and for each place where the bytes are no markup, and go on after it. If some call does not return, it is because a changeset is not closed before the end of the file. The reader of tags always gets to Ok(None), and returns exactly the tags with the id of the changeset last heard of, and an error for each malformed part.", "quantifier": "all byte strings, both changeset readers", "why_tests_cant": "Files can be wrong in any place and in any number of ways; what is returned after an error depends on where reading goes on.", "anchors": ["src/changesets.rs: ChangesetReader::next_changeset, Iterator for ChangesetReader, Iterator for ChangesetTagReader"]}
{"id": "C102", "title": "Objects of any XML bytes", "statement": "For any bytes whatever, malformed or not, what the XML and OSC readers return is fixed by the longest beginning of the bytes that consists of whole parts of an XML document with matching tags: one call returns for each end of an object element in it, with the first object that begins in what stands before that end and after the end before, or None if none does or if it cannot be read. Nothing after that beginning has an effect. The next call returns None if the bytes are a well formed document and panics if they are not, and all calls after it return None. An element with several attributes of the same local name (and different prefixes) is read as if it had one of them.", "quantifier": "all byte strings (UTF-8 is the only encoding; a file with a document type declaration or a byte order mark is outside the model), the XML and the OSC reader, any number of calls", "why_tests_cant": "Files can be wrong in any place and in any number of ways; which objects are returned before the panic depends on where the parser stops.", "anchors": ["src/xml/mod.rs: XMLReader::new, XMLReader::next", "src/osc/mod.rs: OSCReader::new, OSCReader::next"]}
{"id": "C103", "title": "Damaged PBF files: the objects before the damage", "statement": "For any bytes whatever, a PBF reader returns exactly the objects of the frames the bytes begin with, up to the first frame that cannot be read, in order and each frame whole; of the frame that cannot be read it returns nothing. After them it reports the end of the file if fewer than four bytes are left, and panics if there are more. So damage has no effect on the objects of the frames before it, and no part of a block is ever returned.", "quantifier": "all byte strings, the owned-string and shared-string readers and the reader of node positions, both builds, sources that end and sources that fail", "why_tests_cant": "Damage can be at any byte and of any kind; that nothing of the damaged block is returned, and everything before it is, has to hold for each.", "anchors": ["src/stringpbf/mod.rs: PBFReader::next, decode_block_to_objs", "src/arcpbf/mod.rs: PBFReader::next, decode_block_to_objs", "src/stringpbf/node_id_pos.rs: PBFNodePositionReader"]}
{"id": "C104", "title": "PBF readers called again after a panic", "statement": "A caller that catches every panic of a PBF reader and calls the reader again until it reports the end gets, for any bytes whatever, exactly this. Frames give their objects; a header that cannot be read gives one panic and reading goes on after it; a data frame whose blob or block cannot be read gives one panic and reading goes on with the next frame; a frame cut off by the end gives one panic and then the end; up to three bytes left over are passed over. The shared-string reader gives nothing else of a block it panicked in. The owned-string reader, after the panic, gives the objects of that block before the one it could not read, and the reader of positions likewise. So no caller calls for ever, and what is wrong in one frame has no effect on what the others give.", "quantifier": "all byte strings, the owned-string and shared-string readers and the reader of node positions, any number of panics", "why_tests_cant": "Bytes can be wrong in any number of places of any kind; that the reader comes to the end, and in which frame it is after each panic, has to hold for each.", "anchors": ["src/stringpbf/mod.rs: PBFReader::next, decode_block_to_objs", "src/arcpbf/mod.rs: PBFReader::next", "src/stringpbf/node_id_pos.rs: PBFNodePositionReader"]}
{"id": "C105", "title": "nodes(), ways() and relations() of any bytes", "statement": "For any bytes whatever, a loop over nodes(), ways() or relations() of the owned-string PBF reader sees exactly the objects that would be in the file if the groups of its blocks had no objects of the other two kinds: all of them if each frame can be read in this sense, otherwise those of the frames before the first that cannot, and then a panic. A block that has no objects of the kind asked for shows nothing and does no harm, whatever is wrong with the objects it has. A caller who goes on after panics gets what is described in C104, for blocks without the other kinds.", "quantifier": "all byte strings, the three methods, both builds, any number of panics", "why_tests_cant": "The objects passed over may be wrong in any way, in any of the blocks; that none of it matters has to hold for each.", "anchors": ["src/stringpbf/mod.rs: PBFReader::nodes, PBFReader::ways, PBFReader::relations, decode_primitive_group_to_objs"]}
{"id": "C106", "title": "Writing a whole collection with from_iter", "statement": "from_iter returns a closed writer exactly when each object has a version and the sink takes everything; the sink then has the document of the objects, in order, and reading it back gives the objects and the end. Otherwise it panics, and the sink has a beginning of that document, up to the refused request or the first missing version; nothing of the objects after that is written.", "quantifier": "all lists of objects, all fault schedules of the sink, both writers, all object families", "why_tests_cant": "The failing object or request may be anywhere; that nothing after it is written has to hold for each place.", "anchors": ["src/lib.rs: OSMWriter::from_iter", "src/xml/mod.rs: XMLWriter", "src/osc/mod.rs: OSCWriter"]}
{"id": "C107", "title": "nodes(), ways() and relations() of every reader, panics included", "statement": "Through the trait OSMReader, a loop over nodes(), ways() or relations() sees exactly the objects of that kind that a loop over objects() would see, unchanged and in order. It ends in the same way, at the end of the input or with the same panic, and leaves the reader in the same state. If the loop is left early, the reader has taken nothing behind the last object seen: objects() goes on with all that follow, of every kind. So for any bytes it is known what each of the four loops shows, with the PBF, XML and change readers.", "quantifier": "all readers and states, all bytes, all points where a loop is left", "why_tests_cant": "Whether an object of another kind is lost or a panic turns into an end depends on where it stands in the file.", "anchors": ["src/lib.rs: OSMReader::nodes, ways, relations, objects; OSMObjectIterator", "src/xml/mod.rs: XMLReader", "src/osc/mod.rs: OSCReader", "src/stringpbf/mod.rs: PBFReader", "src/arcpbf/mod.rs: PBFReader"]}
{"id": "C108", "title": "The debug text of an object or changeset shows all of it", "statement": "Two objects of the same family have the same text under {:?}, or under {:#?}, exactly if they are the same in every field: kind, id, version, deleted flag, changeset, timestamp (also whether it is a text or a number), user, tags in order, position, nodes or members. No text inside an object, whatever characters it has, can make one look like another. If several are printed, each on lines of its own, the text says how many there are and what each is. The same holds of changesets, up to the order of their map of tags.", "quantifier": "all objects of the three families and all changesets, both forms, all texts, any choice of the characters that are escaped, any order of maps", "why_tests_cant": "Whether two texts can be confused depends on quotes, brackets, commas and line breaks inside names and values.", "anchors": ["src/obj_types/string_types.rs: StringNode, StringWay, StringRelation, StringOSMObj (derive(Debug))", "src/obj_types/rc_types.rs: RcNode, RcWay, RcRelation, RcOSMObj (derive(Debug))", "src/obj_types/arc_types.rs: ArcNode, ArcWay, ArcRelation, ArcOSMObj (derive(Debug))", "src/lib.rs: TimestampFormat, OSMObjectType, Lat, Lon (Debug)", "src/bin/osmio-osc-debug.rs: main", "src/changesets.rs: Changeset (derive(Debug))"]}
{"id": "C109", "title": "What is written depends only on what objects show, and shows all of it", "statement": "Writing an object depends only on what its getters return: the same calls with objects of another family, or made in another way, that show the same, give the same result for every call and leave the same bytes in the sink, faults or not. And conversely two documents are the same bytes only if the same headers were set and the same objects were written in the same order: no text in an object, whatever characters it contains, can make one object, or one number of objects, look like another. The only thing lost is whether a timestamp was an instant or its text.", "quantifier": "all histories of calls of XML and OSC writers, all objects of the three families, all texts in them, all sinks with any faults (first part) or without faults (second part)", "why_tests_cant": "Whether two documents can coincide depends on quotes, brackets and entities inside texts and on where one attribute or element ends; the first part ranges over all faults.", "anchors": ["src/xml/mod.rs: XMLWriter::write_obj, write_xml_escaped", "src/osc/mod.rs: OSCWriter::write_obj", "src/obj_types/mod.rs"]}
{"id": "C110", "title": "Written through any sink and read back through any source", "statement": "What a program sees that writes objects (with versions, and timestamps without quotes) to a file, socket or pipe and reads them back in a loop does not depend on how the sink takes and the source gives the bytes: all objects come back equal and in order, and then the end, exactly if close was not called on the XML writer, every node has a position and every text consists of characters XML keeps. If the writing process is killed at any byte, the loop gives exactly the objects whose text had arrived completely, so all whose write_obj had returned, and then panics; it never gives a wrong or half object, and never says the end. And objects read from a PBF file over any source, complete or failing, can be converted in this way with every call succeeding, and copies of all of them come back exactly if they are portable. So can the objects read from an XML or change file over any source, complete or failing, be rewritten: every call succeeds, and the same objects come back exactly if every node has a position and the parser keeps every character of their texts. The same holds if the objects of a PBF file are edited on the way: every result comes back with exactly the changes that were made.", "quantifier": "all histories of calls, all families of objects, all implementations of Write that never fail and of Read, all ways of cutting the text into pieces, all points at which the writer is killed, all PBF sources", "why_tests_cant": "It ranges over the product of all schedules of short writes, short reads and interruptions, all texts and all points of a crash.", "anchors": ["src/xml/mod.rs: XMLWriter, XMLReader", "src/osc/mod.rs: OSCWriter, OSCReader", "src/stringpbf/mod.rs: PBFReader", "src/arcpbf/mod.rs: PBFReader", "src/lib.rs: OSMReader, OSMWriter"]}
