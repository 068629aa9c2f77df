{"id": "C01", "title": "NLRI list round-trip", "statement": "Encoding a list of prefixes as NLRI and parsing the bytes back with the same address family and Add-Path setting returns the same list of prefixes, in order, with the same path identifiers, whenever the list is consistent with the Add-Path setting, host bits beyond the encoded octets are zero and (without Add-Path) no prefix has length 0.", "quantifier": "every list of IPv4 or IPv6 prefixes of any length, every path identifier, both Add-Path settings", "why_tests_cant": "the space of prefix lists is unbounded and mixes lengths that change the byte alignment of every following element", "anchors": ["src/parser/utils.rs: parse_nlri_list, try_parse_prefix, encode_nlri_prefixes", "src/models/network/prefix.rs: NetworkPrefix::encode"]}
{"id": "C02", "title": "NLRI parsing is bounded and complete", "statement": "When an NLRI byte string parses, every returned prefix has a length no larger than the address family allows, the byte string is exactly the concatenation of the per-prefix wire chunks (nothing skipped, nothing read twice, nothing read past the end), and parsing never panics.", "quantifier": "every byte string, every address family, both Add-Path settings", "why_tests_cant": "the parser runs on arbitrary attacker-controlled bytes; fuzzing only samples them", "anchors": ["src/parser/utils.rs: parse_nlri_list, try_parse_prefix, ReadUtils"]}
{"id": "C03", "title": "The Add-Path guess never changes a well-formed plain list", "statement": "A well-formed NLRI list sent without Add-Path is always parsed as plain prefixes. (The code guesses Add-Path when the first byte of a prefix is 0; the property is false for lists that contain a /0 and the model shows the counterexample; it is proved for lists with no /0.)", "quantifier": "every well-formed plain NLRI list", "why_tests_cant": "the guess is triggered by one byte value at any position, so only a proof over all lists separates the safe class from the unsafe one", "anchors": ["src/parser/utils.rs: parse_nlri_list"]}
{"id": "C04", "title": "AS_PATH wire round-trip", "statement": "If encoding an AS path with 2-byte or 4-byte ASNs succeeds, parsing the bytes with the same width returns the same sequence of segments, with the same types and the same ASN values in the same order.", "quantifier": "every AS path (any number of segments, any segment sizes), both ASN widths", "why_tests_cant": "unbounded nesting of segments of 0..255 ASNs; the length byte and width interact", "anchors": ["src/parser/bgp/attributes/attr_02_17_as_path.rs: parse_as_path, encode_as_path"]}
{"id": "C05", "title": "AS_PATH encoding never truncates silently", "statement": "Encoding an AS path either fails or yields bytes that carry every ASN exactly: it fails exactly when a segment has more than 255 members or, for 2-byte encoding, when some ASN exceeds 65535.", "quantifier": "every AS path, both ASN widths", "why_tests_cant": "overflow only appears at sizes and values no unit test enumerates", "anchors": ["src/parser/bgp/attributes/attr_02_17_as_path.rs: encode_as_path", "src/error.rs: check_max"]}
{"id": "C06", "title": "AS4_PATH reconstruction follows RFC 6793", "statement": "Merging AS_PATH and AS4_PATH returns AS_PATH unchanged when AS4_PATH has a larger path length; otherwise the merged path has the same path length as AS_PATH, and ends in the AS4_PATH content, with only leading ASNs taken from AS_PATH.", "quantifier": "every pair of AS_PATH and AS4_PATH values", "why_tests_cant": "the merge walks two unbounded segment lists with different segment boundaries", "anchors": ["src/models/bgp/attributes/aspath.rs: AsPath::merge_aspath_as4path, route_len"]}
{"id": "C07", "title": "Route enumeration is exactly the product of AS_SET choices", "statement": "Iterating over the routes of an AS path yields exactly the sequences obtained by choosing one member from each AS_SET and keeping each AS_SEQUENCE, confederation segments contributing nothing, and the number of yielded routes equals the number of variations the path reports. This works exactly if the number of variations of no initial part of the path needs more than 64 bits; otherwise the count overflows.", "quantifier": "every AS path", "why_tests_cant": "the number of routes is exponential in the number of sets", "anchors": ["src/models/bgp/attributes/aspath.rs: AsPathRouteIter, AsPathNumberedRouteIter, num_route_variations"]}
{"id": "C08", "title": "Coalescing keeps the routes", "statement": "Coalescing an AS path leaves its path length, its flattened ASN sequence and its set of routes unchanged, is idempotent, and leaves no two adjacent mergeable segments.", "quantifier": "every AS path", "why_tests_cant": "the in-place loop mutates a vector while scanning it; its invariant ranges over all prefixes of all paths", "anchors": ["src/models/bgp/attributes/aspath.rs: AsPath::coalesce, AsPathSegment::merge_in_place"]}
{"id": "C09", "title": "Deduplicating coalesce removes exactly the repeated ASNs", "statement": "dedup_coalesce removes exactly adjacent repetitions (prepending) from sequences and duplicate members of sets, never removes the last occurrence of an ASN, and is idempotent; has_equivalent_routing is an equivalence relation that is insensitive to prepending.", "quantifier": "every AS path", "why_tests_cant": "prepending can occur at any position and across segment boundaries", "anchors": ["src/models/bgp/attributes/aspath.rs: dedup, dedup_merge_in_place, dedup_coalesce, has_equivalent_routing"]}
{"id": "C10", "title": "AS path equality is an equivalence compatible with hashing", "statement": "Segment equality (sets compared irrespective of order) is reflexive, symmetric and transitive and equal segments and paths feed identical data to the hasher.", "quantifier": "every pair and triple of segments and paths", "why_tests_cant": "hash/equality contracts range over all values", "anchors": ["src/models/bgp/attributes/aspath.rs: PartialEq, Hash for AsPathSegment"]}
{"id": "C11", "title": "Attribute list round-trip", "statement": "Encoding a list of well-formed path attributes and parsing the bytes back returns the same list of attributes: same order, same types, same flags and same values.", "quantifier": "every list of modelled path attributes, any number and any value sizes up to 65535 bytes, both ASN widths, both Add-Path settings", "why_tests_cant": "attribute lists are unbounded and every value kind has its own length arithmetic", "anchors": ["src/parser/bgp/attributes/mod.rs: parse_attributes, Attribute::encode_to, Attributes::encode_to"]}
{"id": "C12", "title": "One malformed attribute cannot corrupt another", "statement": "How an attribute list is cut into attributes depends only on the attribute headers: an attribute with an undecodable value is kept as raw bytes together with a warning and every other attribute is decoded exactly as if the malformed one were absent.", "quantifier": "every byte string, every position of the malformed attribute", "why_tests_cant": "requires quantifying over arbitrary malformed content at arbitrary positions", "anchors": ["src/parser/bgp/attributes/mod.rs: parse_attributes"]}
{"id": "C13", "title": "Attribute presence mask agrees with the content", "statement": "has_attr(t) is true exactly when some held attribute has type code t, after any history of constructing, adding, extending and collecting attributes.", "quantifier": "every sequence of construction and mutation operations on an attribute set", "why_tests_cant": "the mask is redundant state that must stay in step over every history", "anchors": ["src/models/bgp/attributes/mod.rs: Attributes::has_attr, add_attr, compute_mask, From, FromIterator, Extend"]}
{"id": "C14", "title": "Mandatory-attribute warnings are exact", "statement": "A missing-mandatory-attribute warning is recorded exactly when the update announces something and lacks that attribute under the stated rules (ORIGIN and AS_PATH always; NEXT_HOP when it announces prefixes in the NLRI field or has no MP_REACH_NLRI; no other type is ever reported).", "quantifier": "every attribute set and every combination of announcement and withdrawal flags", "why_tests_cant": "decision table over all attribute sets", "anchors": ["src/models/bgp/attributes/mod.rs: check_mandatory_attributes", "src/parser/bgp/attributes/mod.rs: AttributeValidationState"]}
{"id": "C15", "title": "BGP message parsing respects the declared length", "statement": "Parsing one BGP message consumes exactly the number of bytes its length field declares, never looks at or consumes bytes after them, and rejects lengths below 19 or above the maximum; the outcome does not depend on the trailing bytes.", "quantifier": "every byte string, every trailing data", "why_tests_cant": "non-interference with arbitrary trailing bytes cannot be sampled", "anchors": ["src/parser/bgp/messages.rs: parse_bgp_message"]}
{"id": "C16", "title": "BGP UPDATE round-trip", "statement": "Encoding an UPDATE message (withdrawn prefixes, attributes, announced prefixes) and parsing it back returns the same message.", "quantifier": "every well-formed UPDATE, both ASN widths, both Add-Path settings", "why_tests_cant": "three nested unbounded lists with length fields", "anchors": ["src/parser/bgp/messages.rs: parse_bgp_update_message, BgpUpdateMessage::encode, BgpMessage::encode"]}
{"id": "C17", "title": "BGP OPEN round-trip", "statement": "Encoding an OPEN message with any optional parameters and capabilities (in the normal or RFC 9072 extended form) and parsing it back returns the same message.", "quantifier": "every well-formed OPEN message", "why_tests_cant": "nested parameter and capability lists with one- or two-byte length fields", "anchors": ["src/parser/bgp/messages.rs: parse_bgp_open_message, BgpOpenMessage::encode"]}
{"id": "C18", "title": "KEEPALIVE, NOTIFICATION and ROUTE-REFRESH round-trip", "statement": "Each of these messages parses back to itself after encoding; NOTIFICATION error code and subcode bytes are preserved for all 65536 combinations.", "quantifier": "every such message, every pair of code bytes, every data payload", "why_tests_cant": "65536 code pairs and unbounded payloads", "anchors": ["src/parser/bgp/messages.rs", "src/models/bgp/error.rs: BgpError::new, get_codes"]}
{"id": "C19", "title": "End-of-RIB detection is exact", "statement": "A BGP UPDATE is reported as End-of-RIB exactly when it announces and withdraws nothing and carries either no attributes, or only one empty MP_UNREACH_NLRI.", "quantifier": "every UPDATE message", "why_tests_cant": "decision over an unbounded message space", "anchors": ["src/parser/bgp/messages.rs: BgpUpdateMessage::is_end_of_rib"]}
{"id": "C20", "title": "MRT common header round-trip", "statement": "Encoding an MRT common header and parsing it returns the same header, for both normal and extended-timestamp types, and consumes exactly 12 or 16 bytes.", "quantifier": "every MRT header whose microsecond field matches its type and whose length is representable", "why_tests_cant": "2^32 timestamps and lengths; the ET adjustment only misbehaves near the limits", "anchors": ["src/parser/mrt/mrt_header.rs: parse_common_header_with_bytes, CommonHeader::encode"]}
{"id": "C21", "title": "Raw MRT records tile the file", "statement": "Reading a file as raw MRT records: each record's bytes are its header plus the announced body (four octets more for a TABLE_DUMP record whose announced length is the known four short), consecutive records follow each other without gap or overlap, only headers that cannot start a record (unassigned type, impossible or oversized length) are skipped, and when the file is a sequence of records their bytes concatenated are the file.", "quantifier": "every file content, any number of records", "why_tests_cant": "lossless framing is a statement about all files", "anchors": ["src/parser/mrt/mrt_record.rs: chunk_mrt_record", "src/parser/iters/raw.rs: RawRecordIterator"]}
{"id": "C22", "title": "Record iteration terminates and makes progress", "statement": "On any finite input every record iterator (default, fallible, raw) ends after finitely many steps, and every yielded record consumes at least 12 bytes.", "quantifier": "every finite byte stream", "why_tests_cant": "termination over all inputs", "anchors": ["src/parser/mrt/mrt_record.rs: chunk_mrt_record", "src/parser/iters/default.rs", "src/parser/iters/fallible.rs", "src/parser/iters/raw.rs"]}
{"id": "C23", "title": "Reading errors account for every consumed byte", "statement": "When reading a record fails, the bytes attached to the error are exactly the bytes consumed from the stream by that attempt, so a caller can dump or replay them without loss.", "quantifier": "every stream and every failure position", "why_tests_cant": "needs every truncation point of every stream", "anchors": ["src/parser/mrt/mrt_record.rs: chunk_mrt_record_with_context", "src/error.rs: ParserErrorWithBytes"]}
{"id": "C24", "title": "Results do not depend on read sizes", "statement": "The sequence of records read from a stream depends only on the stream's bytes, not on how the underlying reader splits them into short reads (including one byte at a time and interrupted reads).", "quantifier": "every stream and every schedule of short reads", "why_tests_cant": "schedules are unbounded", "anchors": ["src/parser/mrt/mrt_header.rs", "src/parser/mrt/mrt_record.rs", "src/parser/iters/recovery.rs: CarryoverReader, ReplayReader"]}
{"id": "C25", "title": "Default and fallible iterators agree", "statement": "The default record iterator returns exactly the successful records of the fallible iterator, in order, up to the first fatal error.", "quantifier": "every input stream and every mix of well-formed and malformed records", "why_tests_cant": "agreement over all streams", "anchors": ["src/parser/iters/default.rs: RecordIterator", "src/parser/iters/fallible.rs: FallibleRecordIterator", "src/parser/iters/mod.rs: handle_record_parse_error"]}
{"id": "C26", "title": "PEER_INDEX_TABLE round-trip", "statement": "Encoding a peer index table that was parsed, or built by adding peers, and parsing it back returns the same collector id, view name and the same peer for every index; what is accepted is exactly the RFC 6396 layout, and the id of a peer is its position.", "quantifier": "every well-formed peer index table with up to 65535 peers", "why_tests_cant": "each peer entry has four possible layouts", "anchors": ["src/parser/mrt/messages/table_dump_v2/peer_index_table.rs: parse_peer_index_table, PeerIndexTable::encode"]}
{"id": "C27", "title": "Peer ids stay consistent while adding peers", "statement": "Building a peer index table by adding peers: adding a peer returns an id that resolves to that peer; ids already handed out keep resolving to the same peer; adding the same address again returns the same id.", "quantifier": "every sequence of add operations starting from the empty table", "why_tests_cant": "invariant over all histories", "anchors": ["src/parser/mrt/messages/table_dump_v2/peer_index_table.rs: add_peer, get_peer_by_id, get_peer_id_by_addr"]}
{"id": "C28", "title": "RIB entry (TABLE_DUMP_V2) round-trip", "statement": "Encoding a RIB AFI record (with or without Add-Path) and parsing it returns the same sequence number, prefix and entries.", "quantifier": "every well-formed RIB record with any number of entries", "why_tests_cant": "entries carry nested attribute lists", "anchors": ["src/parser/mrt/messages/table_dump_v2/rib_afi_entries.rs: parse_rib_afi_entries, RibAfiEntries::encode, RibEntry::encode"]}
{"id": "C29", "title": "TABLE_DUMP (v1) round-trip", "statement": "Encoding a legacy TABLE_DUMP message and parsing it with the matching sub-type returns the same message.", "quantifier": "every well-formed TABLE_DUMP message (IPv4 and IPv6)", "why_tests_cant": "nested attribute lists and two address layouts", "anchors": ["src/parser/mrt/messages/table_dump.rs: parse_table_dump_message, TableDumpMessage::encode"]}
{"id": "C30", "title": "BGP4MP round-trip", "statement": "Encoding a BGP4MP message or state change and parsing it with the matching sub-type returns the same content for 2- and 4-byte ASNs, IPv4 and IPv6 peers and Add-Path variants.", "quantifier": "every well-formed BGP4MP message and state change", "why_tests_cant": "product of sub-types with an embedded BGP message", "anchors": ["src/parser/mrt/messages/bgp4mp.rs"]}
{"id": "C31", "title": "MRT record round-trip", "statement": "Encoding a whole MRT record and reading it back from any stream returns the same record and leaves the stream right after it; concatenated encoded records are read back as the same sequence.", "quantifier": "every sequence of well-formed MRT records of the modelled types", "why_tests_cant": "unbounded sequences of nested structures", "anchors": ["src/parser/mrt/mrt_record.rs: MrtRecord::encode, parse_mrt_record, parse_mrt_body"]}
{"id": "C32", "title": "UPDATE to elements is exact", "statement": "Converting a BGP UPDATE to elements yields exactly one announcement per announced prefix (NLRI and MP_REACH) and one withdrawal per withdrawn prefix, each with the peer, timestamp and shared attributes of the message, in a fixed order, and the iterator's reported size is exact.", "quantifier": "every UPDATE message", "why_tests_cant": "counting and ordering over unbounded lists", "anchors": ["src/parser/mrt/mrt_elem.rs: BgpUpdateElemIter, bgp_update_to_elems, Elementor"]}
{"id": "C33", "title": "RIB records to elements use the right peer", "statement": "For a RIB record and the most recently seen peer index table, each produced element carries the address and ASN of the peer its entry's index designates in that table, and one element is produced per entry as long as indices are known.", "quantifier": "every peer table and every RIB record, every history of records", "why_tests_cant": "depends on the history of peer index tables", "anchors": ["src/parser/mrt/mrt_elem.rs: Elementor::record_to_elems, rib_entry_to_elem, set_peer_table"]}
{"id": "C34", "title": "Filters are a conjunction; negation and lists mean what they say", "statement": "An element passes a list of filters exactly when it passes every filter; a negated filter passes exactly when the plain filter does not; a list filter passes exactly when one of its members does.", "quantifier": "every element, every filter list", "why_tests_cant": "Boolean laws over all filters and elements", "anchors": ["src/parser/filter.rs: Filterable for BgpElem, match_filters"]}
{"id": "C35", "title": "Prefix filters mean address containment", "statement": "For canonical prefixes (no host bits), an exact / super / sub / super-sub prefix filter matches exactly when the two prefixes are equal / one contains the other in the stated direction as sets of addresses, and never matches across address families.", "quantifier": "every pair of canonical prefixes, all four match types", "why_tests_cant": "2^32..2^128 addresses per comparison", "anchors": ["src/parser/filter.rs: prefix_match"]}
{"id": "C36", "title": "Route-view filtering agrees with element filtering and fails closed", "statement": "A lightweight route view passes a filter list exactly when the corresponding element does for the filters that can be evaluated on it; a list containing a filter that needs the full element never passes.", "quantifier": "every route view and every filter list constructible through the public constructors", "why_tests_cant": "agreement between two implementations over all inputs", "anchors": ["src/parser/filter.rs: match_route_view_filter, is_elem_only_filter", "src/parser/iters/route.rs"]}
{"id": "C37", "title": "Filtered iteration equals iteration then filtering", "statement": "The elements returned by an element iterator with filters are exactly the elements of the unfiltered iterator that match the filters, in the same order; record iteration with filters keeps exactly peer-index tables and records with at least one matching element.", "quantifier": "every stream, every filter list", "why_tests_cant": "relation between two runs over all streams", "anchors": ["src/parser/iters/default.rs: ElemIterator, RecordIterator", "src/parser/iters/mod.rs: record_matches_filters"]}
{"id": "C38", "title": "Recovering iteration tiles the file and is transparent on clean files", "statement": "In recovery mode the returned records and skipped gaps have increasing, adjacent, non-overlapping offsets that cover everything consumed; on a stream the normal iterator reads without error, recovery returns exactly the same records and no gap.", "quantifier": "every stream and every recovery configuration", "why_tests_cant": "corruption can occur at any byte", "anchors": ["src/parser/iters/recovery.rs: RecoveringRecordIterator"]}
{"id": "C39", "title": "Recovery resumes only at confirmed boundaries", "statement": "After a gap, parsing resumes only at an offset where the required number of consecutive plausible records was validated (or the stream ends), and never scans more than the configured limit.", "quantifier": "every stream and configuration", "why_tests_cant": "adversarial corruption at every position", "anchors": ["src/parser/iters/recovery.rs: find_recovery, validate_chain, read_candidate"]}
{"id": "C40", "title": "RTR PDU round-trip", "statement": "Encoding an RPKI-to-Router PDU and parsing the bytes, followed by anything, returns the same PDU and the exact number of bytes it occupies.", "quantifier": "every well-formed RTR PDU of every type and version, any trailing bytes", "why_tests_cant": "ten PDU layouts with nested variable-length fields", "anchors": ["src/parser/rpki/rtr.rs: parse_rtr_pdu, RtrEncode"]}
{"id": "C41", "title": "RTR parsing is safe and incremental", "statement": "parse_rtr_pdu never panics; it reports an incomplete PDU exactly when fewer bytes are available than the header or the declared length requires; once a PDU parses, appending bytes never changes the result; a successful parse consumes exactly the declared length.", "quantifier": "every byte string", "why_tests_cant": "incremental parsing over every split point", "anchors": ["src/parser/rpki/rtr.rs: parse_rtr_pdu, read_rtr_pdu"]}
{"id": "C42", "title": "BMP message framing", "statement": "Parsing a BMP message consumes exactly the declared number of bytes, leaves the following messages untouched, never panics, and its result does not depend on trailing bytes.", "quantifier": "every byte string and every trailing data", "why_tests_cant": "non-interference and absence of panics over all bytes", "anchors": ["src/parser/bmp/mod.rs: parse_bmp_msg", "src/parser/bmp/messages"]}
{"id": "C43", "title": "FlowSpec NLRI round-trip and ordering", "statement": "Encoding a well-formed FlowSpec rule and parsing it returns the same rule; parsing accepts only strictly increasing component types.", "quantifier": "every well-formed FlowSpec NLRI", "why_tests_cant": "unbounded operator lists of variable-width values", "anchors": ["src/models/bgp/flowspec/nlri.rs", "src/models/bgp/flowspec/operators.rs"]}
{"id": "C44", "title": "MPLS label stack and labelled NLRI round-trip", "statement": "A 20-bit label round-trips through its 3-byte form; a labelled prefix list encodes and parses back to the same labels and prefixes; label stacks end at the bottom-of-stack bit.", "quantifier": "every label value, stack depth and prefix", "why_tests_cant": "2^20 labels and unbounded lists", "anchors": ["src/models/network/mpls.rs"]}
{"id": "C45", "title": "Capability round-trip", "statement": "Each BGP capability value encodes and parses back to itself within its field widths, and unknown trailing or short data is rejected.", "quantifier": "every capability value", "why_tests_cant": "several unbounded lists of fixed-size entries", "anchors": ["src/models/bgp/capabilities.rs"]}
{"id": "C46", "title": "Community round-trips", "statement": "Standard, extended, IPv6 extended and large communities parse back to themselves after encoding, for every value.", "quantifier": "all 2^32 standard, 2^64 extended, 2^160 IPv6-extended and 2^96 large community values", "why_tests_cant": "value spaces too large to enumerate", "anchors": ["src/parser/bgp/attributes/attr_08_communities.rs", "src/parser/bgp/attributes/attr_16_25_extended_communities.rs", "src/parser/bgp/attributes/attr_32_large_communities.rs"]}
{"id": "C47", "title": "RIB dump encoder keeps every route", "statement": "Exporting elements through the RIB encoder produces a peer table followed by RIB records, one per prefix, with gap-free sequence numbers; every record's entries designate, through the peer table, exactly the peers that announced the prefix, with their last announced attributes; nothing is left afterwards.", "quantifier": "every sequence of elements", "why_tests_cant": "histories of insertions with shared peers and prefixes", "anchors": ["src/encoder/rib_encoder.rs: MrtRibEncoder"]}
{"id": "C48", "title": "Parsers never panic", "statement": "The modelled parsing entry points (BGP messages, MRT records, RTR, BMP, NLRI, FlowSpec) return a value or an error for every input; they never reach a panic, an out-of-bounds index or an arithmetic overflow.", "quantifier": "every byte string", "why_tests_cant": "absence of crashes over all inputs", "anchors": ["src/parser/bgp/messages.rs", "src/parser/mrt/mrt_record.rs", "src/parser/rpki/rtr.rs", "src/parser/bmp/mod.rs", "src/parser/utils.rs"]}
{"id": "C49", "title": "Elements convert back to attributes", "statement": "Turning an element into path attributes and reading the standard fields back gives the element's origin, AS path, next hop, local preference, MED, communities and aggregator.", "quantifier": "every element", "why_tests_cant": "all combinations of optional fields", "anchors": ["src/parser/mrt/mrt_elem.rs: From<&BgpElem> for Attributes"]}
{"id": "C50", "title": "ASN classification is consistent", "statement": "The private/reserved classification of ASNs coincides with the IANA ranges for all 32-bit values and equality/ordering/hash of ASNs depends on the number only.", "quantifier": "all 2^32 ASNs in both widths", "why_tests_cant": "2^32 values", "anchors": ["src/models/network/asn.rs"]}
{"id": "C51", "title": "BGP role pairs", "statement": "Two roles are accepted as a valid session pair exactly for (Provider, Customer), (RS, RS-Client), (Peer, Peer) and their mirror images; the relation is symmetric.", "quantifier": "all pairs of roles", "why_tests_cant": "relational property of a decision table", "anchors": ["src/models/bgp/role.rs: validate_role_pairs"]}
{"id": "C52", "title": "BMP messages convert to MRT records faithfully", "statement": "Converting a BMP route-monitoring message to an MRT record keeps the peer address, peer ASN, timestamp and the BGP message.", "quantifier": "every route-monitoring message", "why_tests_cant": "all peer kinds and address families", "anchors": ["src/parser/mrt/mrt_record.rs: TryFrom<&BmpMessage>"]}
{"id": "C53", "title": "Dissection trees are well nested", "statement": "Every node of a dissection tree has a byte range inside its parent's range and inside the input, and dissection succeeds on every input without panicking.", "quantifier": "every byte string", "why_tests_cant": "malformed length fields at every nesting level", "anchors": ["src/parser/bgp/dissect.rs", "src/parser/mrt/dissect.rs"]}
{"id": "C54", "title": "UPDATE sections are isolated", "statement": "The withdrawn, attribute and announced sections of an UPDATE are parsed independently: a malformed NLRI field yields no prefixes and one warning carrying its bytes, and leaves the other two sections exactly as they would be without it; the cut into sections is determined by the two length fields alone.", "quantifier": "every byte string as each of the three sections", "why_tests_cant": "independence of one part's result from arbitrary content of the others", "anchors": ["src/parser/bgp/messages.rs: parse_bgp_update_message", "src/parser/bgp/messages.rs: read_nlri"]}
{"id": "C55", "title": "AS path accessors agree with the hops of the path", "statement": "The origin, the origins, the collector and the conversion to a list of AS numbers are those of the sequence of hops the path stands for, whatever its segmentation, as long as no sequence segment is empty (an empty last segment hides the origin); the required AS number width is two octets exactly when every AS fits.", "quantifier": "every AS path", "why_tests_cant": "all segmentations and segment kinds", "anchors": ["src/models/bgp/attributes/aspath.rs: iter_origins, get_origin_opt, get_collector_opt, to_u32_vec_opt, required_asn_length, route_len"]}
{"id": "C56", "title": "Path attributes have their assigned codes and layouts", "statement": "Every attribute value is written under the type code IANA assigned to it, in the layout its RFC gives: flags, code, one- or two-octet length, value; and that layout is what the parser accepts.", "quantifier": "every attribute value of every kind", "why_tests_cant": "an encoder and a parser that are wrong in the same way pass every round-trip test", "anchors": ["src/parser/bgp/attributes/mod.rs: parse_attributes, Attribute::encode", "src/models/bgp/attributes/mod.rs: AttrType"]}
{"id": "C57", "title": "Attribute accessors, flags and header validation", "statement": "The accessors of an attribute set return the first attribute of the type asked for; the default flags of a new attribute are those of its RFC category; a header whose flags or length contradict the attribute's category or fixed length, and a repeated type, are each reported as exactly one warning; iterating over communities lists all communities of all community attributes in order.", "quantifier": "every attribute set and every attribute header", "why_tests_cant": "all combinations of 256 codes, 256 flag octets and lengths", "anchors": ["src/models/bgp/attributes/mod.rs: Attributes", "src/parser/bgp/attributes/mod.rs: validate_attribute_flags, validate_attribute_length"]}
{"id": "C58", "title": "GEO_PEER_TABLE round-trip", "statement": "Encoding a GEO_PEER_TABLE and parsing it back returns the same table; what is accepted is exactly the RFC 6397 layout.", "quantifier": "every GEO_PEER_TABLE and every byte string", "why_tests_cant": "all peer kinds and counts", "anchors": ["src/parser/mrt/messages/table_dump_v2/geo_peer_table.rs"]}
{"id": "C59", "title": "Deprecated type 5 records round-trip", "statement": "A message or state change of the deprecated MRT type BGP (5) is written in its layout, parses back to itself, and is refused instead of truncated when an AS number, an address or the subtype does not fit.", "quantifier": "every message and state change, every byte string", "why_tests_cant": "all subtypes and payloads", "anchors": ["src/parser/mrt/messages/legacy_bgp.rs"]}
{"id": "C60", "title": "What a filter's text means", "statement": "Creating a filter from a name and a value succeeds exactly for the documented names and value syntax and gives the filter that the text stands for: an exclamation mark negates, at most once; lists are comma-separated, ignore spaces and empty items and are either all plain or all negated; everything else is an error.", "quantifier": "every name and every value", "why_tests_cant": "all strings, including mixed and nested negations", "anchors": ["src/parser/filter.rs: Filter::new, parse_prefixes_filter, parse_asns_filter"]}
{"id": "C61", "title": "RTR PDUs follow the RFCs", "statement": "RPKI-to-Router PDUs are encoded and parsed in the layouts of RFC 6810 (version 0) and RFC 8210 (version 1), so that the library interoperates with caches and routers.", "quantifier": "every well-formed PDU of every type and version", "why_tests_cant": "round-trip tests agree with themselves even if both directions use a wrong layout", "anchors": ["src/parser/rpki/rtr.rs: parse_rtr_pdu, RtrEncode"]}
{"id": "C62", "title": "Timestamps survive their trip through f64", "statement": "The f64 timestamp of a message, element or record orders and distinguishes times exactly as the seconds and microseconds it was made from, and splitting it with convert_timestamp returns those seconds and microseconds.", "quantifier": "every pair of 32-bit seconds and microseconds fields", "why_tests_cant": "2^32 * 10^6 instants, and rounding errors depend on the low bits of each", "anchors": ["src/parser/utils.rs: convert_timestamp", "src/parser/bmp/messages/headers.rs: parse_per_peer_header", "src/parser/mrt/mrt_elem.rs: record_to_elems_iter"]}
{"id": "C63", "title": "BMP messages are read as RFC 7854 writes them", "statement": "A BMP message is accepted exactly if its content has the layout of RFC 7854, RFC 8671 and RFC 9069 for its type, with the per-peer header, statistics, TLVs and embedded BGP messages returned as sent; an OpenBMP header in front changes nothing.", "quantifier": "every byte string given to parse_bmp_msg or parse_openbmp_msg", "why_tests_cant": "accepting exactly the right byte strings needs all lengths, flags and TLV sequences at once; tests try a few captured messages", "anchors": ["src/parser/bmp/mod.rs: parse_bmp_msg, parse_openbmp_msg", "src/parser/bmp/messages/*", "src/parser/bmp/openbmp.rs: parse_openbmp_header"]}
{"id": "C64", "title": "Recovery keeps the elements of every record it returns", "statement": "Iterating elements in recovery mode gives exactly the matching elements of the records that record recovery returns, in order, with every gap and every error in its place between them.", "quantifier": "every input stream, failure pattern, recovery configuration and filter list", "why_tests_cant": "caching and draining of elements around gaps and errors depends on the whole history", "anchors": ["src/parser/iters/recovery.rs: RecoveringElemIterator::next"]}
{"id": "C65", "title": "Exporting elements as an updates file", "statement": "Exporting elements through the updates encoder produces one BGP4MP_ET record per element, in the order they were given, and reading the file gives the same elements back; nothing is left in the encoder afterwards, and a failed export keeps everything.", "quantifier": "every sequence of elements and of process, reset and export calls", "why_tests_cant": "all element contents and all interleavings of calls; a single attribute that does not fit or is read under other parameters than it was written under shows only for some contents", "anchors": ["src/encoder/updates_encoder.rs: MrtUpdatesEncoder", "src/models/bgp/elem.rs: From<&BgpElem> for Attributes"]}
{"id": "C66", "title": "The route iterator gives the routes of the stream", "statement": "The light-weight route iterators give, for every stream, exactly the routes (announced and withdrawn prefixes with peer, time and AS path) of its records that pass the filters, in order; a record that cannot be read costs no other record, the variant that reports errors gives the same routes with each error in its place, and for streams of well-formed records the routes are those of the element iterator.", "quantifier": "every input stream, delivery pattern and filter list, with and without core dumps", "why_tests_cant": "a second decoder written for speed has to agree with the full one on every record, and the pending state carries over record boundaries", "anchors": ["src/parser/iters/route.rs: RouteIterator::next, FallibleRouteIterator::next, parse_raw_record_route_iter"]}
{"id": "C67", "title": "Diagnostic iteration reports every record once", "statement": "Iterating diagnostic events over a file reports each record once and in order: parsed, with its bytes and all its validation findings, or with its error, header, bytes and dissection tree. Something that is no record is reported as the last event with the bytes consumed; iteration always ends, takes nothing afterwards and never panics; the upgraded iterator gives the same events with a tree for each record.", "quantifier": "every file, every delivery of its bytes by the reader, and readers that fail", "why_tests_cant": "the events must be complete for every mix of good, damaged and cut records, and for every way a reader can deliver them", "anchors": ["src/parser/iters/diagnostic.rs: DiagnosticIterator::next, DissectingDiagnosticIterator::next, record_validation_warnings"]}
{"id": "C68", "title": "Findings point at the bytes they are about", "statement": "The diagnostic iteration with dissection attaches to each validation finding a byte range of the record: a finding about an attribute of an UPDATE gets exactly the bytes of this attribute (of the right one if a type occurs several times), a finding about a prefix field this field, findings about the list as a whole the attribute section, a ROUTE-REFRESH finding the body of the message; findings of records that are not taken apart get the whole record. Every range lies inside the record.", "quantifier": "every record that parses, with any attributes in any order and number", "why_tests_cant": "the range depends on the order and repetition of attributes, on the offsets of all enclosing layers, and on which attributes were parsed before a list broke off", "anchors": ["src/parser/iters/diagnostic.rs: span_record_warnings, locate_warning_span, DissectingDiagnosticIterator::next"]}
{"id": "C69", "title": "The update iterator gives every announcement of the file", "statement": "Iterating announcements yields, in file order, every UPDATE of BGP4MP and type 5 records with its time and peer, every RIB record, and every TABLE_DUMP entry, and nothing else; the variant that reports errors has the record errors in between. Making elements of each announcement gives exactly what the element iterator gives, the result does not depend on read sizes, and iteration ends.", "quantifier": "every byte stream, every way a reader delivers it, and every mix of record types", "why_tests_cant": "items of multi-entry records are buffered and interleave with reading; order and completeness must hold for every file and every delivery", "anchors": ["src/parser/iters/update.rs: UpdateIterator::next, FallibleUpdateIterator::next, MrtUpdate::timestamp"]}
{"id": "C70", "title": "Text dumps are read row by row", "statement": "Reading the output of `show ip bgp` gives one element for each row of the table, in order: with the row's prefix, or the nearest prefix above it when the row has none, the next hop, MED, local preference, AS path and origin of the columns, and the router's address and AS number from the preamble as the peer; lines that are not rows give nothing.", "quantifier": "every text dump: any column layout, any rows, prefix-only lines and other lines in any order", "why_tests_cant": "the meaning of a line depends on the positions of the columns and on the lines above it", "anchors": ["src/parser/text_dump.rs: TextDumpIterator::next, parse_route_line, parse_header, entry_to_elem, parse_text_dump"]}
{"id": "C71", "title": "A text dump is recognised by its column header", "statement": "Opening a text dump succeeds exactly if one of its first 64 lines is a column header (Next Hop, Metric, LocPrf, Weight, Path in this order); the columns are where the header has them, the preamble gives router address and local AS number, and without a header or when the reader fails before it an error is returned.", "quantifier": "every text and every way a reader delivers or fails", "why_tests_cant": "headers differ in spacing and preamble between routers; the search goes over arbitrarily many lines", "anchors": ["src/parser/text_dump.rs: TextDumpIterator::new, parse_header, parse_column_header"]}
{"id": "C72", "title": "Detecting the format loses no bytes", "statement": "Opening a stream with format detection gives the same records as opening it as MRT and the same elements as opening it as a text dump, whichever it is: the bytes looked at are given to the parser again; an empty stream is an empty MRT file, and a read error is returned.", "quantifier": "every stream and every way a reader delivers it", "why_tests_cant": "detection reads ahead; that nothing is lost or doubled must hold for every content and read size", "anchors": ["src/parser/text_dump.rs: detect_text_dump", "src/parser/mod.rs: BgpkitParser::from_auto_reader, from_auto_reader_with_timestamp"]}
{"id": "C73", "title": "The date in a file name becomes the time of the elements", "statement": "The time of a text dump is taken from its name: from a date and a time of day as in route-views archives, else from a date as in PCH archives; it is the number of seconds since 1970 of that moment in the Gregorian calendar, and names without a valid date give none.", "quantifier": "every file name and every date", "why_tests_cant": "calendar arithmetic has leap-year cases at four, one hundred and four hundred years; the place of the date in the name is free", "anchors": ["src/parser/text_dump.rs: infer_timestamp_from_path"]}
{"id": "C74", "title": "Iterating a text dump is independent of reads and ends", "statement": "The elements of a text dump do not depend on how the reader cuts the bytes, filters give exactly the matching elements in order, iteration ends, and for ASCII text it never panics.", "quantifier": "every text, every delivery of its bytes, every filter list", "why_tests_cant": "line reading goes over arbitrary read boundaries; the state between rows is carried along", "anchors": ["src/parser/text_dump.rs: TextDumpIterator::next", "src/parser/iters/default.rs: ElemIterator::next", "src/parser/iters/fallible.rs"]}
{"id": "C75", "title": "Lines of elements have one field for each column", "statement": "The text line of an element, its PSV line and the text line of a route element consist of one field for each column of their header, in that order, separated by '|'; each field shows the value of that column (numbers in decimal, sets in braces, communities by kind) or is empty if the value is absent; no field contains a separator or a line break. A single origin AS is reported exactly if there is one.", "quantifier": "every element and every route element, with every kind of path segment and community", "why_tests_cant": "fields are built from some thirty cases of values; one value with a separator in it shifts all columns after it", "anchors": ["src/models/bgp/elem.rs: Display for BgpElem, Display for BgpRouteElem, BgpElem::to_psv, BgpElem::get_psv_header, BgpElem::get_origin_asn_opt", "src/models/bgp/attributes/aspath.rs: Display for AsPath", "src/models/bgp/community.rs: Display"]}
{"id": "C76", "title": "A line tells the element", "statement": "Two elements have the same text line only if they have the same values in all its columns, and the same for PSV lines and route elements; the text of an AS path tells the path.", "quantifier": "every pair of elements; every pair of paths", "why_tests_cant": "it is a statement about all pairs of values; tests print single values", "anchors": ["src/models/bgp/elem.rs: Display for BgpElem, BgpElem::to_psv", "src/models/bgp/attributes/aspath.rs: Display for AsPath", "src/models/bgp/community.rs: Display for MetaCommunity"]}
{"id": "C77", "title": "AS numbers in text", "statement": "Exactly the decimal numbers below 2^32, alone or after 'AS', are read as AS numbers; what is printed for an AS number is read back as that number.", "quantifier": "every text and every AS number", "why_tests_cant": "the texts are infinitely many; boundary values at 2^32 and odd prefixes", "anchors": ["src/models/network/asn.rs: FromStr for Asn, Display for Asn"]}
{"id": "C78", "title": "The order of elements", "statement": "Elements compare by time, then by peer address (IPv4 before IPv6, then by number); the order is total and transitive, so that sorting is well-defined, and elements compare as equal only if they are equal.", "quantifier": "every three elements", "why_tests_cant": "the laws of an order are statements about all pairs and triples", "anchors": ["src/models/bgp/elem.rs: Ord for BgpElem, Ord for BgpRouteElem"]}
{"id": "C79", "title": "JSON of AS paths", "statement": "An AS path without confederation segments and adjacent sequences is written as the list of its AS numbers and sets, any other path as the list of its segments with kind and AS numbers; both forms are read, and what is written of a path is read as the same path.", "quantifier": "every AS path and every JSON document of one of the two forms", "why_tests_cant": "paths have any number of segments in any order of kinds; the writer chooses between two forms by a scan that must agree with what the reader merges", "anchors": ["src/models/bgp/attributes/aspath.rs: Serialize for AsPath, Deserialize for AsPath, simplified_format_len, AsPathVisitor"]}
{"id": "C80", "title": "JSON of elements", "statement": "The JSON document of an element or route element has one entry for each field, and reading it, with its keys in any order and other keys added, returns the same element.", "quantifier": "every element and route element, every kind of community, every order of keys", "why_tests_cant": "some thirty kinds of communities and nineteen optional fields combine; documents are written by derived and handwritten code", "anchors": ["src/models/bgp/elem.rs: BgpElem, BgpRouteElem", "src/models/network/prefix.rs: Serialize, Deserialize for NetworkPrefix", "src/models/bgp/community.rs: MetaCommunity", "src/models/bgp/attributes/mod.rs: AttrRaw"]}
{"id": "C81", "title": "RIS Live messages from their JSON fields", "statement": "parse_ris_live_message returns for an UPDATE one announcement for each prefix of each announcement and then one withdrawal for each withdrawn prefix, in order, with the peer, AS number and time of the message and the attributes of its fields; for any other message nothing; it fails exactly if the document, the origin, the aggregator or a prefix cannot be read, with the error of the first of these.", "quantifier": "every text, every JSON document, every order of keys, every set of missing fields", "why_tests_cant": "documents have optional fields in any order and two nested tagged enums, one of them flattened; tests show single documents", "anchors": ["src/parser/rislive/mod.rs: parse_ris_live_message, parse_ris_live_message_json, parse_prefix", "src/parser/rislive/messages/mod.rs: RisLiveMessage", "src/parser/rislive/messages/server/ris_message.rs: RisMessage, RisMessageEnum, Announcement"]}
{"id": "C82", "title": "RIS Live messages from their raw octets", "statement": "parse_ris_live_message_raw returns the elements of the BGP message whose octets the raw field gives in hexadecimal, with the peer of the envelope and its time to the microsecond; the full form gives the same elements, the envelope's fields, the attributes and the warnings; messages of sessions with two-octet AS numbers are read as such.", "quantifier": "every text, every BGP message, every time between 1970 and 2106 to the microsecond", "why_tests_cant": "times are doubles whose rounding must be right for every microsecond; the second attempt at parsing depends on when the first one fails", "anchors": ["src/parser/rislive/messages/server/raw_bytes.rs: parse_ris_live_message_raw, parse_ris_live_message_raw_full, parse_raw_bgp_message_with_asn_fallback, get_micro_seconds"]}
{"id": "C83", "title": "RIS Live client messages", "statement": "A subscription built by any sequence of setter calls is written with exactly the settings that were set, each with the value of the last call; the options for raw messages and acknowledgements do not disturb each other.", "quantifier": "every sequence of calls", "why_tests_cant": "it is a statement about all sequences of calls", "anchors": ["src/parser/rislive/messages/client/ris_subscribe.rs: RisSubscribe", "src/parser/rislive/messages/client/mod.rs: RisLiveClientMessage"]}
{"id": "C84", "title": "What the options of the command select", "statement": "The command shows exactly the elements that satisfy all the options given: origin AS, prefix (exact, super, sub), peer addresses, peer AS, type, times, AS path, community, address family, and each filter expression key=value or key!=value, whose two forms select complementary elements; a value that cannot be read, or a combination that makes no sense, ends the command with a message before anything is read.", "quantifier": "every combination of options, every text of a filter expression with blanks anywhere around its parts, every element", "why_tests_cant": "expressions are free text with blanks and two operators, and the options can be combined in any number of ways", "anchors": ["src/bin/main.rs: parse_filter_expression, Filters, main"]}
{"id": "C85", "title": "What the command puts out", "statement": "Every element or record that passes the filters is written once, in order, in the format chosen, and nothing else; PSV output starts with one header if there is any element; --elems-count and --records-count print the numbers of elements and records that pass the filters; --hex shows the bytes of each record and is refused where they cannot be shown; --recover reports each gap and their totals; a reader that closes the pipe ends the command quietly and any other refused write with an error; the command does not panic while it writes.", "quantifier": "every file, every combination of options, every number of writes that succeed before one is refused", "why_tests_cant": "five loops share the work depending on eight options; the answers of the operating system to each write are a history", "anchors": ["src/bin/main.rs: main, run_elems, run_records, run_hex_records, write_line, format_elem, format_record, RecoveryStats", "src/render/hex.rs: encode"]}
{"id": "C86", "title": "What the text of a record shows", "statement": "The text form of a record consists of lines: time, type, both ends of the session, the kind of message, then every withdrawn prefix, every announced prefix (with its labels), every attribute with its value and every warning, in order and each on its own line under its title; of tables every entry in order, of peer index tables every peer in the order of the numbers. Titles without lines are left out. Two updates whose texts are the same have the same time, ends and routes.", "quantifier": "every record of every type, every number of prefixes, attributes, entries and peers", "why_tests_cant": "what is shown is gathered from several places of an update, and lines must not be confused with one another for any values", "anchors": ["src/render/text.rs: format_record, format_record_with_hex, render_bgp4mp, render_legacy_bgp, render_bgp_message, render_update, render_attribute, render_attributes_block, render_table_dump, render_table_dump_v2, capability_summary"]}
{"id": "C87", "title": "Streaming records from JavaScript", "statement": "A caller of parseMrtRecord that resets before a file, appends to its buffer what arrives, calls until nothing is returned and slices off bytesRead octets after each call gets exactly the elements of the records of the file in order, each record with the peer index table of the records before it, for every way the file is cut into pieces, whatever was parsed before the reset; each element is returned as soon as its record is complete; a part of a record is left alone; malformed data is reported as an error.", "quantifier": "every input, every way of cutting it into pieces, every earlier state of the parser", "why_tests_cant": "the buffer can end at any octet of any record, and the state carried from call to call depends on all records before", "anchors": ["src/wasm.rs: parse_mrt_record_core, parse_mrt_record_wasm, reset_mrt_parser, MrtRecordResult"]}
{"id": "C88", "title": "BMP messages for JavaScript", "statement": "parseBmpMessage and parseOpenBmpMessage fail exactly when the message does not parse; parseOpenBmpMessage returns nothing exactly for OpenBMP messages that are not about a router; otherwise the document has the kind of the message as its type, the time of the message, the router of the OpenBMP header, the peer of the per-peer header with its policy bits exactly when the message is about a peer, and the content; elements carry the address and AS number of that peer.", "quantifier": "every byte string and every time", "why_tests_cant": "the document is built from two optional headers and seven kinds of bodies; which combinations occur depends on the parser", "anchors": ["src/wasm.rs: build_bmp_result, make_peer_header, make_openbmp_header, parse_openbmp_message_core, parse_bmp_message_core"]}
{"id": "C89", "title": "BGP messages and dissection for JavaScript", "statement": "parseBgpUpdate and parseBgpUpdateFull fail exactly when the message does not parse and return the same elements, at time zero from an unspecified peer; the full result has all attributes and warnings of the UPDATE. dissectMrtRecord returns nothing exactly when no complete record stands at the front, reports as many octets as parseMrtRecord does, and its tree covers exactly the octets of the record whatever follows; neither dissection ever fails.", "quantifier": "every byte string", "why_tests_cant": "two independent readers of the same buffer must agree on where the record ends for every input, also for records that do not parse", "anchors": ["src/wasm.rs: parse_bgp_update_core, parse_bgp_update_full_core, dissect_bgp_message_core, dissect_mrt_record_core"]}
{"id": "C90", "title": "Settings of a parser", "statement": "The methods that configure a parser do what they say in any order and number: filters added accumulate, with_filters replaces all earlier ones, an unparsable filter fails the chain with the error of the first such call, core dumps and warnings are as last set. Iterating gives exactly the elements of all records that match every filter in effect; order and repetition of filters and the warning setting make no difference. For text dumps the elements are filtered alike and there are no records.", "quantifier": "every chain of calls, every input, every division of it into reads", "why_tests_cant": "chains of settings are unbounded sequences, and the iterators prefilter whole records by some filters and elements by all of them", "anchors": ["src/parser/mod.rs: enable_core_dump, disable_warnings, add_filter, add_filters, with_filters, next_record", "src/parser/iters/default.rs: RecordIterator, ElemIterator"]}
{"id": "C91", "title": "Log lines and core dumps", "statement": "Iterating only adds lines to the log; the remark about Zebra records appears at most once for a parser; with warnings disabled only errors are logged. The core dump file is written only if enabled, and what it holds fails again, with the same error and bytes, when it is read as a file of its own (unless the reader itself failed). Over a file of records the run logs one line for each record with a complaint, in order, stops at the first damaged record if core dumps are enabled, and leaves the last record worth a dump in the file. Iterating over elements leaves behind the same as iterating over records.", "quantifier": "every input and every reader, any number of calls, every earlier state of log and file", "why_tests_cant": "which lines and which dump are left depends on the whole sequence of records and errors", "anchors": ["src/parser/iters/mod.rs: handle_record_parse_error, write_mrt_core_dump", "src/parser/mod.rs: warn_zebra_compat_once, next_record", "src/parser/iters/default.rs"]}
{"id": "C92", "title": "Names of cached files", "statement": "new_cached stores the file of a path under cache-<crc32 of file name>-<file name> in the cache directory and nowhere else; the checksum is CRC-32; different paths are cached under different names.", "quantifier": "every path, pairs of paths", "why_tests_cant": "the checksum is computed by a table; whether two paths collide is a question about all pairs of texts", "anchors": ["src/parser/mod.rs: new_cached, add_suffix_to_filename", "src/parser/utils.rs: crc32"]}
{"id": "C93", "title": "Raw records with and without filters", "statement": "Iterating over raw records gives every record of a file with its exact bytes, parsed or not, and logs nothing. Iterating over raw records with filters gives exactly the records of the record iterator, each with the bytes it was parsed from, stops where that stops, and leaves behind the same log lines and the same core dump, including one remark about Zebra records. A text dump has no raw records.", "quantifier": "every input, every reader, every setting, every earlier state of log and file", "why_tests_cant": "two iterators with separate loops and state must agree on every input, including readers that fail at any point", "anchors": ["src/parser/iters/raw.rs: RawRecordIterator, FilteredRawRecordIterator", "src/parser/iters/mod.rs: handle_record_parse_error"]}
{"id": "C94", "title": "Files of raw records", "statement": "A record written to a file is the only content of that file and is read back exactly. After any sequence of appends, each of which may be cut short at any octet by a full medium or the end of the process, every record whose append returned Ok is read back exactly and in order.", "quantifier": "every sequence of records, every point of failure, every earlier content", "why_tests_cant": "the point of failure can be any octet of any record", "anchors": ["src/parser/mrt/mrt_record.rs: write_raw_bytes, append_raw_bytes, raw_bytes"]}
{"id": "C95", "title": "Link-state attributes through their methods", "statement": "Each method of a link-state attribute (names, flags, administrative group, metrics, delays, loss, bandwidths) returns what the last TLV of its type on the wire, or the last call for its type, says at the place the RFC gives, and None if there is none or it is too short; TLVs of unknown types are kept in order.", "quantifier": "every sequence of TLVs, every sequence of calls", "why_tests_cant": "sequences of TLVs and calls are unbounded, with repeated types and any lengths", "anchors": ["src/models/bgp/linkstate.rs: LinkStateAttribute", "src/parser/bgp/attributes/attr_29_linkstate.rs: parse_link_state_attribute"]}
{"id": "C96", "title": "Tunnel attributes through their methods", "statement": "The tunnels read are those of the wire in order; each method of a tunnel returns the value of the first sub-TLV of its type as its RFC defines it: egress endpoint, colour, UDP port, preference. get_tunnels_by_type gives all tunnels of the type in order, has_tunnel_type says whether there is one.", "quantifier": "every attribute, every tunnel", "why_tests_cant": "the methods read raw octets of sub-TLVs of any length in any order", "anchors": ["src/models/bgp/tunnel_encap.rs: TunnelEncapTlv, TunnelEncapAttribute", "src/parser/bgp/attributes/attr_23_tunnel_encap.rs"]}
{"id": "C97", "title": "One elementor for many threads", "statement": "Converting the records handed out by into_elementor_and_record_iter or into_elementor_and_raw_record_iter one by one with the elementor that comes with them, in any order and by any number of threads that share the iterator behind a mutex, gives the elements that the element iterator gives: in record order exactly those, all threads together each element as often as it occurs, and every schedule comes to an end.", "quantifier": "every stream, every setting, every number of threads and chunk size, every interleaving of their steps", "why_tests_cant": "the interleavings of threads are not under the control of a test and unbounded in number", "anchors": ["src/parser/iters/mod.rs: into_elementor_and_raw_record_iter, into_elementor_and_record_iter", "src/parser/mrt/mrt_elem.rs: Elementor::with_peer_table, record_to_elems_iter", "examples/parallel_records_to_elem.rs"]}
{"id": "C98", "title": "JSON texts are read as what was written", "statement": "The JSON text of an AS path, an element or a route, and the text a RIS Live client message gives for sending, whatever characters its strings contain (quotes, backslashes, line feeds, control characters), is a JSON document that a JSON reader gives back with the same content; the compact form is always one line, so the JSON output of the command, cut into lines, is the list of its elements.", "quantifier": "every JSON value without duplicate keys, every path, element, route, chain of client calls, and output of the command", "why_tests_cant": "strings are arbitrary texts that must be escaped, and documents nest without bound", "anchors": ["src/parser/rislive/messages/client/mod.rs: RisLiveClientMessage::to_json_string", "src/bin/main.rs: format_elem", "src/models/bgp/elem.rs: BgpElem", "src/models/bgp/attributes/aspath.rs: AsPath"]}
{"id": "C99", "title": "Only IP routes become elements", "statement": "An UPDATE gives announcements and withdrawals for the IP prefixes in it and for nothing else: what is sent in another address family (flow specifications, VPN routes, link state) is delivered as what it is or left out, but never shown as an announcement of prefixes that nobody announced.", "quantifier": "every MP_REACH_NLRI and MP_UNREACH_NLRI attribute: all families, all contents", "why_tests_cant": "the contents of every family are arbitrary octets, and whether they can be taken for prefixes depends on each of them", "anchors": ["src/parser/bgp/attributes/attr_14_15_nlri.rs: parse_nlri", "src/parser/mrt/mrt_elem.rs: bgp_update_to_elems", "src/models/network/afi.rs: Safi"]}
{"id": "C100", "title": "NLRI built by hand", "statement": "An NLRI built with new_reachable, new_unreachable, new_labeled_*, new_link_state_* or new_flowspec_* says what was put in: family, routes, next hop (asking a withdrawal for its next hop panics), labels; is_link_local tells whether the next hop is a link-local address; and an attribute with it, once written, is read as what was built.", "quantifier": "every prefix, next hop, label stack, list of link-state or FlowSpec NLRI, attribute flags and session parameters", "why_tests_cant": "the routes and lists are arbitrary and unbounded, and what is lost in writing is only seen for the contents that a test does not have", "anchors": ["src/models/bgp/attributes/nlri.rs: Nlri", "src/models/network/nexthop.rs: NextHopAddress", "src/models/network/mpls.rs: LabeledNetworkPrefix", "src/parser/bgp/attributes/attr_14_15_nlri.rs: encode_nlri, parse_nlri"]}
{"id": "C101", "title": "Files one behind the other", "statement": "Reading two files, one behind the other, gives what the first gives and then what the second gives: for raw records, records, elements, announcements and routes, with any filters, with errors reported or skipped.", "quantifier": "every file of complete records, every second file, every way the octets are delivered in pieces, every list of filters and buffer policy", "why_tests_cant": "the files are unbounded and arbitrary, and state that is carried over from one record to the next (peer index table, end of the iteration) shows only for some pairs of files", "anchors": ["src/parser/iters/default.rs: RecordIterator, ElemIterator", "src/parser/iters/fallible.rs: FallibleRecordIterator, FallibleElemIterator", "src/parser/iters/raw.rs: RawRecordIterator", "src/parser/iters/route.rs: RouteIterator", "src/parser/iters/update.rs: UpdateIterator, FallibleUpdateIterator", "src/parser/mrt/mrt_elem.rs: Elementor"]}
{"id": "C102", "title": "The order of the attributes", "statement": "The order in which an UPDATE, RIB entry or TABLE_DUMP record lists its attributes changes nothing: the same elements in the same order, with the same communities of each kind, the same attributes kept as bytes and the same warnings, in some order; of an attribute listed twice, the first counts.", "quantifier": "every list of attributes and every permutation of it, with any octets as values, any incomplete rest behind them, any session parameters, any routes", "why_tests_cant": "the permutations and attribute lists are unbounded; tests list attributes in one order", "anchors": ["src/parser/mrt/mrt_elem.rs: get_relevant_attributes, bgp_update_to_elems_iter, rib_entry_to_elem, table_dump_to_elem", "src/parser/bgp/attributes/mod.rs: parse_attributes, AttributeValidationState", "src/models/bgp/attributes/mod.rs: Attributes"]}
{"id": "C103", "title": "What is made of an input is bounded by its size", "statement": "An input cannot make the parser hand out more than its size allows. An UPDATE of n octets gives at most n - 4 elements, a BGP message at most n - 23; an MRT record gives at most as many elements as its body has octets, a TABLE_DUMP_V2 record at most one for eight octets, a TABLE_DUMP record at most one for eighteen, after any records before it. Of a file the default iterators give at most one record for twelve octets, and the elements together with twelve for each record are at most the octets of the file; a loop that has asked once more than there are octets has seen the end. The fallible iterator gives at most as many elements and errors as the reader delivers octets, ends and failures. The raw records together have at most as many octets as the file. The room reserved for the entries of a RIB record is enough for them and at most twice what the rest of the record can hold, whatever number of entries the record announces.", "quantifier": "all octet strings, records, histories of records, filters, readers (pieces, interruptions, ends, failures) and numbers of calls", "why_tests_cant": "A bound on what any input gives is a statement about all inputs; tests look at some files.", "anchors": ["src/parser/mrt/mrt_elem.rs: BgpUpdateElemIter, RecordElemIter, record_to_elems", "src/parser/iters/default.rs", "src/parser/iters/fallible.rs", "src/parser/iters/raw.rs", "src/parser/mrt/messages/table_dump_v2/rib_afi_entries.rs: parse_rib_afi_entries, rib_entry_min_len", "src/parser/utils.rs: parse_nlri_list"]}
{"id": "C104", "title": "Values as keys: equality, order and hash", "statement": "Values can be keys of hash maps and ordered collections: equality is an equivalence, equal values hash alike, and the order agrees with equality. For BMP per-peer headers equality is symmetric and transitive, a header with a time that is a number equals itself, and headers with times as they are read hash alike if they are equal; stripped headers are equal exactly if they differ in the time only. Attribute types are ordered by their codes, and those read from octets compare as equal only if they are. Record headers are equal exactly if they differ at most in the length. Comparing elements panics exactly if a time is NaN. AS numbers convert to and from integers without changing the number where it fits.", "quantifier": "all headers (with all 2^64 bit patterns as times), all attribute types, all AS numbers in both widths and all integers", "why_tests_cant": "The laws range over all pairs and triples of values, NaN, infinities and signed zeros included.", "anchors": ["src/parser/bmp/messages/headers.rs: PartialEq, Hash for BmpPerPeerHeader, strip_timestamp", "src/models/bgp/attributes/mod.rs: AttrType, Ord for AttrType", "src/models/mrt/mod.rs: PartialEq for CommonHeader", "src/models/bgp/elem.rs: Ord for BgpElem", "src/models/network/asn.rs: From, PartialEq, encode"]}
{"id": "C105", "title": "What was read can be written and read again, and when not", "statement": "A program that reads a file and writes it again keeps the routes: attributes, BGP messages and RIB records that were read without an error are written without an error and read again as the same values, exactly when none of them is one of these: an AGGREGATOR with an AS number above 65535 in a session with two-octet AS numbers; a tunnel sub-TLV of a type below 128 and more than 255 octets; an MP_REACH_NLRI without next hop; labelled withdrawals; link-state NLRI or prefixes under the link-state family; prefixes without path identifier where they are expected (abbreviated attributes of RIB records with path identifiers); an OPEN parameter of type 255; a message, OPEN or attribute field that outgrows its length field, because short attributes are written in a longer form.", "quantifier": "all octet sequences that the readers accept, under every session setting and every RIB record type and prefix", "why_tests_cant": "Round-trip tests start from values made by hand or from a few captures; this ranges over every accepted input, and the exceptions are inputs no capture happens to contain.", "anchors": ["src/parser/bgp/attributes/mod.rs: parse_attributes, Attribute::encode, Attributes::encode", "src/parser/bgp/attributes/attr_14_15_nlri.rs: parse_nlri, encode_nlri", "src/parser/bgp/messages.rs: parse_bgp_message, parse_bgp_update_message, BgpMessage::encode, BgpOpenMessage::encode", "src/parser/mrt/messages/table_dump_v2/rib_afi_entries.rs: parse_rib_afi_entries, RibAfiEntries::encode"]}
{"id": "C106", "title": "A file that was read can be written and read again, and when not", "statement": "A record that any iterator returned is written without an error and read back, wherever it stands in a file, as the same record with the reader right behind it, exactly when its body can be: peer index tables and state changes always; geo tables if the name is ASCII; RIB and TABLE_DUMP records if the attributes of every entry are those of C105 and fit the two-octet length; BGP4MP messages as in C105; type 5 messages if the OPEN or the attributes can be written; and none of more than 16 MiB. A file of such records is read back as the same records in the same order.", "quantifier": "all records that a reader or iterator returns on any input, with any filter; all files made of them; all readers and reading patterns", "why_tests_cant": "Tests re-encode a few records; this ranges over every record that can be read, and gives the complete list of records a rewriting tool loses.", "anchors": ["src/parser/mrt/mrt_record.rs: parse_mrt_record, MrtRecord::encode, CommonHeader", "src/parser/mrt/messages/mod.rs: MrtMessage::encode", "src/parser/mrt/messages/table_dump.rs: parse_table_dump_messages, TableDumpMessage::encode", "src/parser/mrt/messages/table_dump_v2: PeerIndexTable, GeoPeerTable, RibAfiEntries", "src/parser/mrt/messages/bgp4mp.rs: parse_bgp4mp, Bgp4MpMessage::encode", "src/parser/mrt/messages/legacy_bgp.rs: parse_legacy_bgp, encode_legacy_bgp"]}
{"id": "C107", "title": "A BGP message gives the same elements whichever way it arrives", "statement": "The octets of a BGP message give the same elements alone (parse_bgp_message and bgp_to_elems, or the WASM parseBgpUpdate), in a BGP4MP record of any message subtype, in a type 5 UPDATE record (which lacks the 19-octet header), in a BMP route monitoring message, in an OpenBMP message around it, in the MRT record that the BMP message converts to, and in a RIS Live message with a raw field: each envelope is read without an error exactly when the message alone is, and its elements differ only in the time and the peer, which are those of the envelope.", "quantifier": "all octet sequences, all peers, times and envelopes, all states of the Elementor", "why_tests_cant": "Tests compare single messages of one source with expected elements; that the sources agree on every message is a statement about pairs of runs of different decoders.", "anchors": ["src/parser/bgp/messages.rs: parse_bgp_message", "src/parser/mrt/mrt_elem.rs: Elementor::bgp_to_elems, record_to_elems", "src/parser/mrt/messages/bgp4mp.rs: parse_bgp4mp", "src/parser/mrt/messages/legacy_bgp.rs: parse_legacy_bgp", "src/parser/bmp/mod.rs: parse_bmp_msg, parse_openbmp_msg", "src/parser/rislive/messages/server/raw_bytes.rs: parse_ris_live_message_raw", "src/wasm.rs: parse_bgp_update"]}
{"id": "C108", "title": "Announcements survive JSON exactly when their attributes have nothing JSON drops", "statement": "An announcement of the update iterators (a BGP4MP or type 5 UPDATE, a RIB record, a TABLE_DUMP entry), written as JSON with serde and read back, is the same announcement exactly if in each of its attribute lists all f32 values are finite, the parser left no warnings, the set of attribute types is that of the attributes, and no path in the flat form has an empty sequence. Otherwise: a value that is infinite or NaN makes the document unreadable; else everything is read back except the warnings, the types of truncated attributes, and the empty sequences. The documents have the documented variant names, keys and flag words; labels above 20 bits are refused.", "quantifier": "all inputs of the iterators (all octet sequences), all announcements, all attribute values and flags that a parser can yield, any implementation of addresses, times and floats that reads back what it writes", "why_tests_cant": "The document has some thirty variants with nested lists of routes, labels, link-state descriptors and flow specifications; a round trip of a sample says nothing about the other variants, flag octets or values, and the lost parts (warnings, NaN, empty sequences) do not occur in samples.", "anchors": ["src/parser/iters/update.rs: MrtUpdate, Bgp4MpUpdate, LegacyBgpUpdate, TableDumpV2Entry", "src/models/bgp/mod.rs: BgpUpdateMessage", "src/models/bgp/attributes/mod.rs: Attributes, Attribute, AttributeValue, AttrFlags", "src/models/bgp/attributes/nlri.rs: Nlri", "src/models/bgp/linkstate.rs", "src/models/bgp/tunnel_encap.rs", "src/models/bgp/flowspec/mod.rs", "src/models/network/mpls.rs: MplsLabel, LabeledNetworkPrefix", "src/models/mrt/table_dump.rs", "src/models/mrt/table_dump_v2.rs: RibEntry"]}
{"id": "C109", "title": "The JSON of every element that a file gives is read as that element", "statement": "For every input, each element that the iterator or the command gives, written as JSON (to_string, the command's compact or pretty form) and read back, is the element itself, except that empty sequences of a path in the flat form are lost; if one of its communities has a number that is infinite or NaN, the text is not read. What the command prints with --json for a file, cut into lines and each line read, is the list of elements that pass the filters, in order, each so changed. The JSON text of an announcement is read as C108 says of its document.", "quantifier": "all octet sequences, all readers, all filters, all options that select JSON elements, all points at which writing may fail, any implementation of addresses, times and floats that reads back what it writes", "why_tests_cant": "A round trip of samples says nothing about elements with other communities, prefixes, paths or texts; that no element of any input has a value (a prefix longer than its address, a duplicate key) that breaks the text needs every parser to be examined.", "anchors": ["src/models/bgp/elem.rs: BgpElem", "src/bin/main.rs: main", "src/parser/iters/default.rs: ElemIterator", "src/parser/mrt/mrt_elem.rs: Elementor", "src/parser/iters/update.rs: MrtUpdate"]}
{"id": "C110", "title": "A dissection shows the attribute values that the parser reads", "statement": "For every attribute value that the parser reads, the lines that the dissection shows for it say what the parser read: the origin, every AS path segment with its kind and AS numbers in order, next hop, MED, local preference, aggregator, each community, extended community, large community and cluster numbered from 1, each AIGP entry, and family, next-hop length and prefixes of MP_REACH_NLRI and MP_UNREACH_NLRI. The lines of an NLRI section are the texts of the prefixes the parser reads from it, in order. A list of attributes is shown as one node per attribute that the parser reads, in order, with its name, number, length and flags; a last attribute that is cut short is shown as such. The header of a message is shown with its length, its type and the octets left over; the fields of NOTIFICATION and ROUTE-REFRESH, the fixed fields of OPEN, and its optional parameters and capabilities one by one, are shown as the parser reads them. The header of an MRT record and the peers, addresses and session states of a BGP4MP record are shown as the parser reads them, and the BGP message in it is taken from the same octets. The sections of an UPDATE are shown with their lengths and with the prefixes that the parser reads from them. Every value and every UPDATE body, readable or not, has one label for each node of its tree.", "quantifier": "all attribute codes, all octet sequences, both AS number widths, with and without Add-Path, any rendering of IPv6 addresses", "why_tests_cant": "The dissection reads the octets a second time with its own code and its own offsets; that two readers agree on every input, every length and every kind of community cannot be seen from a few dumps.", "anchors": ["src/parser/bgp/dissect.rs: dissect_bgp_message, dissect_attr_value, dissect_nlri", "src/parser/mrt/dissect.rs: dissect_mrt_bytes", "src/parser/bgp/attributes/mod.rs: parse_attributes"]}
