{"claims": [
 {"property": "C01", "status": "proved", "theorems": ["Verif.Props.c01_nlri_roundtrip"], "note": "every list of well-formed prefixes, both families, both Add-Path settings"},
 {"property": "C02", "status": "proved", "theorems": ["Verif.Props.c02_nlri_sound", "Verif.Props.c02_nlri_addpath_iff", "Verif.Props.c02_nlri_no_panic"], "note": ""},
 {"property": "C03", "status": "partial", "theorems": ["Verif.Props.c03_plain_list_partial", "Verif.Props.c03_counterexample"], "note": "false in general: counterexample proved; see DESIGN.md"},
 {"property": "C04", "status": "proved", "theorems": ["Verif.Props.c04_aspath_roundtrip", "Verif.Props.c04_aspath_no_panic"], "note": ""},
 {"property": "C05", "status": "proved", "theorems": ["Verif.Props.c05_aspath_encode_total", "Verif.Props.c05_aspath_bytes"], "note": ""},
 {"property": "C06", "status": "proved", "theorems": ["Verif.Props.c06_as4_longer", "Verif.Props.c06_as4_merge", "Verif.Props.c06_as4_no_panic", "Verif.Props.c06_confed_dropped"], "note": "the English statement is proved; c06_confed_dropped is a witness that leading confederation segments, which RFC 6793 would prepend, are dropped"},
 {"property": "C07", "status": "proved", "theorems": ["Verif.Props.c07_routes", "Verif.Props.c07_routes_total", "Verif.Props.c07_total_iff", "Verif.Props.c07_overflow", "Verif.Props.c07_empty_set_late"], "note": "c07_routes: the routes are exactly the choices; c07_total_iff: when they can be enumerated, and that the enumeration panics otherwise (as in c07_overflow)."},
 {"property": "C08", "status": "proved", "theorems": ["Verif.Props.c08_coalesce_preserves", "Verif.Props.c08_coalesce_minimal", "Verif.Props.c08_coalesce_idempotent", "Verif.Props.c08_coalesce_canonical"], "note": ""},
 {"property": "C09", "status": "proved", "theorems": ["Verif.Props.c09_dedup_routing", "Verif.Props.c09_dedup_members", "Verif.Props.c09_dedup_minimal", "Verif.Props.c09_dedup_idempotent", "Verif.Props.c09_equiv_iff", "Verif.Props.c09_equiv_iff_routing", "Verif.Props.c09_equivalence", "Verif.Props.c09_prepending"], "note": ""},
 {"property": "C10", "status": "proved", "theorems": ["Verif.Props.c10_segment_eq", "Verif.Props.c10_segment_equivalence", "Verif.Props.c10_path_equivalence", "Verif.Props.c10_hash_compatible"], "note": ""},
 {"property": "C44", "status": "partial", "theorems": ["Verif.Props.c44_label_roundtrip", "Verif.Props.c44_label_range", "Verif.Props.c44_labeled_roundtrip", "Verif.Props.c44_withdrawal_roundtrip", "Verif.Props.c44_parse_sound", "Verif.Props.c44_no_panic", "Verif.Props.c44_try_new", "Verif.Props.c44_encode_errors", "Verif.Props.c44_addpath_none_not_preserved", "Verif.Props.c44_host_bits_masked"], "note": "Round trip for every list of well-formed labelled prefixes; false without the well-formedness condition: path id missing in an Add-Path session, host bits set (witnesses proved)."},
 {"property": "C46", "status": "partial", "theorems": ["Verif.Props.c46_standard_roundtrip", "Verif.Props.c46_standard_bytes", "Verif.Props.c46_large_roundtrip", "Verif.Props.c46_extended_roundtrip", "Verif.Props.c46_ipv6_extended_roundtrip", "Verif.Props.c46_parsed_is_canonical", "Verif.Props.c46_no_panic", "Verif.Props.c46_custom_not_preserved"], "note": "Exact characterisation of the values that survive; the claim for literally every value is false (witness c46_custom_not_preserved)."},
 {"property": "C43", "status": "partial", "theorems": ["Verif.Props.c43_roundtrip", "Verif.Props.c43_parse_sound", "Verif.Props.c43_survives_iff", "Verif.Props.c43_order_rejected", "Verif.Props.c43_no_panic", "Verif.Props.c43_constructors", "Verif.Props.c43_ipv6_not_preserved", "Verif.Props.c43_overread", "Verif.Props.c43_encode_panic"], "note": "Exact characterisation of the rules that survive; false for IPv6 prefixes of at most 32 bits and for the IPv6 offset variants (witnesses proved)."},
 {"property": "C11", "status": "partial", "theorems": ["Verif.Props.c11_attributes_roundtrip_partial", "Verif.Props.c11_encodable", "Verif.Props.c11_not_roundtrip"], "note": "Round trip, flags included, for every list of attribute values satisfying AttrValOk (spec); false for the eight kinds of values in c11_not_roundtrip, each of which encodes without an error."},
 {"property": "C12", "status": "proved", "theorems": ["Verif.Props.c12_cut", "Verif.Props.c12_cut_unique", "Verif.Props.c12_isolated", "Verif.Props.c12_as_if_absent", "Verif.Props.c12_malformed_warned", "Verif.Props.c12_undecoded_kept", "Verif.Props.c12_fails_iff", "Verif.Props.c12_broken_tail_loses_all", "Verif.Props.c12_no_panic"], "note": "The only list-level failure, a list ending inside a two-octet length field, is characterised by c12_fails_iff; c12_broken_tail_loses_all shows that it discards the complete attributes before it."},
 {"property": "C13", "status": "partial", "theorems": ["Verif.Props.c13_mask_exact_partial", "Verif.Props.c13_mask_after_parse", "Verif.Props.c13_truncated_claims_presence"], "note": "Exact over every history whose parsed starting points have no truncated last attribute; false with one (witness), exact description in c13_mask_after_parse."},
 {"property": "C14", "status": "partial", "theorems": ["Verif.Props.c14_mandatory_warnings_partial", "Verif.Props.c14_update_warnings_partial", "Verif.Props.c14_truncated_not_reported"], "note": "Exact over the same histories as C13; a truncated attribute counts as present (witness)."},
 {"property": "C15", "status": "partial", "theorems": ["Verif.Props.c15_accepted_iff", "Verif.Props.c15_type_numbers", "Verif.Props.c15_declared_length_partial", "Verif.Props.c15_error_independent", "Verif.Props.c15_consumed", "Verif.Props.c15_short_refused", "Verif.Props.c15_truncated_accepted", "Verif.Props.c15_no_panic"], "note": "Exact for every input that holds the declared number of octets; false beyond that: a declared length larger than the input is accepted (witness c15_truncated_accepted)."},
 {"property": "C16", "status": "partial", "theorems": ["Verif.Props.c16_update_roundtrip_partial", "Verif.Props.c16_update_layout", "Verif.Props.c16_message_roundtrip_partial", "Verif.Props.c16_message_layout", "Verif.Props.c16_counterexample"], "note": "Round trip under UpdateOk (spec); false with default routes outside Add-Path sessions (witness) and for the values excluded by C11."},
 {"property": "C17", "status": "partial", "theorems": ["Verif.Props.c17_open_roundtrip", "Verif.Props.c17_open_roundtrip_exact", "Verif.Props.c17_open_layout", "Verif.Props.c17_type_255_refused", "Verif.Props.c17_asn_truncated", "Verif.Props.c17_long_open_refused"], "note": "Round trip for every OPEN within its field widths; an OPEN above 4096 octets is encoded but refused by the parser, an AS number above 65535 is cut (witnesses)."},
 {"property": "C18", "status": "proved", "theorems": ["Verif.Props.c18_error_numbers", "Verif.Props.c18_notification_bytes", "Verif.Props.c18_notification_roundtrip", "Verif.Props.c18_route_refresh_roundtrip", "Verif.Props.c18_route_refresh_layout", "Verif.Props.c18_route_refresh_warnings", "Verif.Props.c18_keepalive", "Verif.Props.c18_unknown_alias"], "note": "All 65536 code pairs keep their numbers; the unknown variant of an assigned subcode comes back as the named variant (c18_unknown_alias)."},
 {"property": "C19", "status": "partial", "theorems": ["Verif.Props.c19_end_of_rib_partial", "Verif.Props.c19_route_monitoring_partial", "Verif.Props.c19_marker_recognised", "Verif.Props.c19_link_state_withdrawal", "Verif.Props.c19_malformed_nlri"], "note": "Exact when MP_UNREACH_NLRI holds its routes as prefixes; false for link-state withdrawals and for malformed NLRI (witnesses)."},
 {"property": "C45", "status": "partial", "theorems": ["Verif.Props.c45_decoded_iff", "Verif.Props.c45_meaning_unique", "Verif.Props.c45_capability_roundtrip", "Verif.Props.c45_encoded_layout", "Verif.Props.c45_wrong_length", "Verif.Props.c45_no_panic", "Verif.Props.c45_restart_time_truncated", "Verif.Props.c45_ext_next_hop_queries"], "note": "Exact decoding relation; round trip within field widths; restart times above 4095 are cut (witness)."},
 {"property": "C50", "status": "proved", "theorems": ["Verif.Props.c50_private", "Verif.Props.c50_documentation", "Verif.Props.c50_reserved", "Verif.Props.c50_number_only", "Verif.Props.c50_order_consistent", "Verif.Props.c50_required_len"], "note": ""},
 {"property": "C51", "status": "proved", "theorems": ["Verif.Props.c51_role_pairs", "Verif.Props.c51_symmetric", "Verif.Props.c51_counterpart"], "note": ""},
 {"property": "C54", "status": "proved", "theorems": ["Verif.Props.c54_sections", "Verif.Props.c54_refused_iff", "Verif.Props.c54_cut_unique"], "note": ""},
 {"property": "C55", "status": "proved", "theorems": ["Verif.Props.c55_origin", "Verif.Props.c55_origins", "Verif.Props.c55_origin_origins", "Verif.Props.c55_collector", "Verif.Props.c55_vec", "Verif.Props.c55_vec_dedup", "Verif.Props.c55_squeeze", "Verif.Props.c55_required_len", "Verif.Props.c55_route_len", "Verif.Props.c55_empty_segment_hides_origin"], "note": "Stated for paths without empty sequence segments; c55_empty_segment_hides_origin shows why."},
 {"property": "C26", "status": "proved", "theorems": ["Verif.Props.c26_read", "Verif.Props.c26_accept", "Verif.Props.c26_layout", "Verif.Props.c26_roundtrip", "Verif.Props.c26_parsed_tables", "Verif.Props.c26_built_tables", "Verif.Props.c26_peer_new", "Verif.Props.c26_gaps_renumbered", "Verif.Props.utf8_exact"], "note": "Tables made by hand (the maps are public) with gaps in their ids are renumbered: c26_gaps_renumbered."},
 {"property": "C27", "status": "partial", "theorems": ["Verif.Props.c27_id_iff_address", "Verif.Props.c27_resolves_partial", "Verif.Props.c27_first_kept", "Verif.Props.c27_stable", "Verif.Props.c27_dense", "Verif.Props.c27_limit", "Verif.Props.c27_other_peer", "Verif.Props.c27_parsed_table_overwritten"], "note": "Ids are keyed by address only: a second peer with the same address gets an id that resolves to the first (witness); adding to a parsed table with repeated addresses overwrites an id in use (witness). Everything else holds over every history."},
 {"property": "C28", "status": "partial", "theorems": ["Verif.Props.c28_read_iff", "Verif.Props.c28_roundtrip_partial", "Verif.Props.c28_abbreviated_next_hop", "Verif.Props.c28_missing_path_id", "Verif.Props.c28_path_id_dropped"], "note": "Exact description of what is accepted for all eight subtypes; round trip under RibOk (spec). False when the presence of path identifiers does not match the subtype (witnesses), and for the attribute values excluded by C11."},
 {"property": "C29", "status": "partial", "theorems": ["Verif.Props.c29_read_iff", "Verif.Props.c29_other_subtypes", "Verif.Props.c29_roundtrip_partial", "Verif.Props.c29_batch_roundtrip_partial", "Verif.Props.c29_batch_uniform", "Verif.Props.c29_truncated"], "note": "Exact description of what is accepted; round trip under DumpOk (spec). Times above 32 bits and AS numbers above 16 bits are cut (witness)."},
 {"property": "C30", "status": "partial", "theorems": ["Verif.Props.c30_message_iff", "Verif.Props.c30_state_iff", "Verif.Props.c30_other_subtypes", "Verif.Props.c30_message_roundtrip_partial", "Verif.Props.c30_state_roundtrip", "Verif.Props.c30_is_local", "Verif.Props.c30_mixed_families", "Verif.Props.c30_asn_truncated"], "note": "Exact description of what is accepted for all ten subtypes, including the two Zebra forms; round trip under MpMessageOk and MpStateOk (spec). False for mixed address families and AS numbers that do not fit (witnesses)."},
 {"property": "C58", "status": "partial", "theorems": ["Verif.Props.c58_read_iff", "Verif.Props.c58_layout", "Verif.Props.c58_roundtrip_partial", "Verif.Props.c58_name_mangled", "Verif.Props.latin1_utf8"], "note": "Round trip for ASCII names; a non-ASCII name is read back as Latin-1 (witness)."},
 {"property": "C59", "status": "partial", "theorems": ["Verif.Props.c59_message_iff", "Verif.Props.c59_state_iff", "Verif.Props.c59_message_roundtrip_partial", "Verif.Props.c59_state_roundtrip"], "note": "Round trip for every payload for which C16-C18 are proved; state changes without restriction."},
 {"property": "C20", "status": "proved", "theorems": ["Verif.Props.c20_layout", "Verif.Props.c20_roundtrip", "Verif.Props.c20_read", "Verif.Props.c20_micro_needed", "Verif.Props.c20_length_needed"], "note": "Exact layout, round trip from any reader, and the converse; the two conditions on the header are shown to be needed."},
 {"property": "C21", "status": "proved", "theorems": ["Verif.Props.c21_record_bytes", "Verif.Props.c21_record_read", "Verif.Props.c21_tiling", "Verif.Props.c21_file"], "note": "The returned records are exactly those of the tiling relation of the specification, for every file."},
 {"property": "C22", "status": "proved", "theorems": ["Verif.Props.c22_raw", "Verif.Props.c22_default", "Verif.Props.c22_filtered_raw", "Verif.Props.c22_fallible_partial", "Verif.Props.c22_fallible_file", "Verif.Props.c22_fallible_endless"], "note": "Every finite byte stream; also for readers with temporary errors. Outside the property (a reader that fails for ever) the fallible iterator does not end: c22_fallible_endless."},
 {"property": "C23", "status": "proved", "theorems": ["Verif.Props.c23_chunk_error", "Verif.Props.c23_record_error", "Verif.Props.c23_iteration", "Verif.Props.c23_end", "Verif.Props.c23_file", "Verif.Props.c23_ends_at_end", "Verif.Props.c23_truncation_hidden"], "note": "Including whole iterations: over a file, records and errors together carry every byte (c23_file), because no body parser reports the error that means the end of the stream. c23_truncation_hidden: an UnexpectedEof error of the reader at a record boundary is reported as a clean end."},
 {"property": "C24", "status": "partial", "theorems": ["Verif.Props.c24_chunk", "Verif.Props.c24_record", "Verif.Props.c24_raw", "Verif.Props.c24_default", "Verif.Props.c24_fallible", "Verif.Props.c24_recovering_partial", "Verif.Props.c24_recovering_elements_partial", "Verif.Props.c38_interrupted"], "note": "Raw, default and fallible iteration: every schedule, with interruptions and errors. Recovering iteration (records and elements): every schedule of chunks and errors without Interrupted; with Interrupted the claim is false there (c38_interrupted)."},
 {"property": "C25", "status": "proved", "theorems": ["Verif.Props.c25_default", "Verif.Props.c25_filtered_raw", "Verif.Props.c25_one_bad_record_ends_iteration"], "note": "The default iterator returns the successful records of the fallible one before the first fatal error; c25_one_bad_record_ends_iteration shows that a record with a short body is such an error."},
 {"property": "C31", "status": "partial", "theorems": ["Verif.Props.c31_roundtrip_partial", "Verif.Props.c31_file_partial", "Verif.Props.c31_large_refused", "Verif.Props.c31_many_routes"], "note": "Every record whose message satisfies the conditions of C26-C30, C58, C59, from any reader and any number of records in a file; above 16 MiB the encoded record is refused by the reader (c31_large_refused)."},
 {"property": "C56", "status": "proved", "theorems": ["Verif.Props.c56_value_bytes", "Verif.Props.c56_encoded", "Verif.Props.c56_parsed"], "note": "For every attribute list whose values satisfy AttrValOk (the domain of C11): flags, assigned code, length and the octets of every value kind, in both directions. FlowSpec and link-state NLRI inside MP attributes are outside AttrValOk."},
 {"property": "C57", "status": "partial", "theorems": ["Verif.Props.c57_accessors", "Verif.Props.c57_origin", "Verif.Props.c57_get_attr", "Verif.Props.c57_aggregator_last", "Verif.Props.c57_aggregator_not_first", "Verif.Props.c57_effective_as_path", "Verif.Props.c57_default_flags_partial", "Verif.Props.c57_partial_by_default", "Verif.Props.c57_default_flags_unknown", "Verif.Props.c57_header_warnings_partial", "Verif.Props.c57_no_warnings", "Verif.Props.c57_two_flag_warnings", "Verif.Props.c57_unchecked", "Verif.Props.c57_communities_partial", "Verif.Props.c57_ipv6_communities_skipped"], "note": "Exact behaviour proved; the property fails for aggregator (last instead of first), for the default flags of two attribute types, for headers with wrong category and partial bits (two warnings), for codes whose flags are not checked, and for IPv6 extended communities (skipped by the iterator)."},
 {"property": "C32", "status": "partial", "theorems": ["Verif.Props.c32_update_elems_partial", "Verif.Props.c32_message_elems", "Verif.Props.c32_record_elems", "Verif.Props.c32_update_iter", "Verif.Props.c32_record_iter_partial", "Verif.Props.c32_table_dump_elems_partial", "Verif.Props.c32_labeled_routes_lost", "Verif.Props.c32_earlier_mp_reach_lost", "Verif.Props.c32_defaults_invented", "Verif.Props.c32_table_dump_as4_path_ignored", "Verif.Props.c32_record_size_hint_wrong"], "note": "Exact elements of every update, message and record, and their order; the property fails for labelled routes, for all but the last MP attribute (which the wire cannot repeat without a warning), for LOCAL_PREF and MED (0 when absent), for AS4_PATH in TABLE_DUMP and for the size hint of the record iterator (witnesses)."},
 {"property": "C33", "status": "proved", "theorems": ["Verif.Props.c33_rib_elems", "Verif.Props.c33_set_table", "Verif.Props.c33_calls", "Verif.Props.c33_calls_elems", "Verif.Props.c33_one_per_entry", "Verif.Props.c33_entries_lost", "Verif.Props.c33_path_id_lost"], "note": "Over every history of records. One entry with an unknown peer drops all later entries of its record (c33_entries_lost); path identifiers of RIB entries are not in the elements (c33_path_id_lost)."},
 {"property": "C49", "status": "partial", "theorems": ["Verif.Props.c49_fields_partial", "Verif.Props.c49_withdrawal", "Verif.Props.c49_round_trip_partial", "Verif.Props.c49_atomic_lost", "Verif.Props.c49_community_order", "Verif.Props.c49_aggregator_address_lost"], "note": "Every field but ATOMIC_AGGREGATE, which is dropped; communities are regrouped by kind, and an aggregator without AS number loses its address (witnesses)."},
 {"property": "C34", "status": "proved", "theorems": ["Verif.Props.c34_meaning", "Verif.Props.c34_laws", "Verif.Props.c34_negated_text"], "note": "Answers of every filter on every element against Spec.Passes; prefix filters for prefixes without host bits (see C35)."},
 {"property": "C35", "status": "partial", "theorems": ["Verif.Props.c35_prefix_partial", "Verif.Props.c35_laws", "Verif.Props.c35_host_bits"], "note": "For prefixes without host bits (Canonical); with host bits the answer can be wrong, since addresses are compared unmasked (c35_host_bits)."},
 {"property": "C36", "status": "partial", "theorems": ["Verif.Props.c36_agrees", "Verif.Props.c36_record_agrees", "Verif.Props.c36_fails_closed", "Verif.Props.c36_double_negation"], "note": "Fail-closed for every filter that text can make; a double negation built by hand is not (c36_double_negation). Agreement for every element an elementor makes (c36_record_agrees)."},
 {"property": "C37", "status": "proved", "theorems": ["Verif.Props.c37_elems", "Verif.Props.c37_two_runs", "Verif.Props.c37_records", "Verif.Props.c37_raw_records", "Verif.Props.c37_fallible_elems", "Verif.Props.c37_fallible_records"], "note": "Element, record, raw and fallible iterators, any reader behaviour and chunking."},
 {"property": "C60", "status": "proved", "theorems": ["Verif.Props.c60_denotes", "Verif.Props.c60_errors", "Verif.Props.c60_negated_once"], "note": "Parsing of addresses, prefixes, regular expressions and timestamps is a parameter (TextEnv)."},
 {"property": "C40", "status": "partial", "theorems": ["Verif.Props.c40_roundtrip", "Verif.Props.c40_needed", "Verif.Props.c40_silent_changes", "Verif.Props.c40_length_wraps", "Verif.Props.c40_length_panics", "Verif.Props.c41_read_complete", "Verif.Props.utf8_exact"], "note": "Full round-trip, with anything behind it, for every well-formed PDU; through any reader with c41_read_complete. PDUs that the types allow but that are not well-formed are encoded without an error and come back changed or not at all (witnesses)."},
 {"property": "C41", "status": "proved", "theorems": ["Verif.Props.c41_no_panic", "Verif.Props.c41_incomplete", "Verif.Props.c41_stable", "Verif.Props.c41_accepts", "Verif.Props.c41_split", "Verif.Props.c41_faults", "Verif.Props.c41_read_sound", "Verif.Props.c41_read_complete", "Verif.Props.c41_read_limit", "Verif.Props.c41_read_short"], "note": ""},
 {"property": "C61", "status": "partial", "theorems": ["Verif.Props.c61_rfc_partial", "Verif.Props.c61_router_key_layout", "Verif.Props.c61_router_key_misread", "Verif.Props.c61_accessors"], "note": "Holds for all types but Router Key. The Router Key layout of the library is not that of RFC 8210 section 5.10 (flags and zero octet behind the length instead of in the header): proved for every key."},
 {"property": "C62", "status": "partial", "theorems": ["Verif.Props.c62_error", "Verif.Props.c62_later", "Verif.Props.c62_order", "Verif.Props.c62_convert_partial", "Verif.Props.c62_convert_loses", "Verif.Props.c62_saturates", "Verif.Props.f64Round_spec"], "note": "Order and distinctness are exact. convert_timestamp truncates instead of rounding, so it returns the microseconds sent or one less (c62_convert_partial; c62_convert_loses is a witness, about half of all microsecond values are affected). f64Round_spec says that the modelled rounding returns a nearest double."},
 {"property": "C42", "status": "partial", "theorems": ["Verif.Props.c42_no_panic", "Verif.Props.c42_frame_partial", "Verif.Props.c42_accepts", "Verif.Props.c42_incomplete", "Verif.Props.c42_refuses", "Verif.Props.c42_unknown_type"], "note": "Holds for the seven message types of RFC 7854, whatever the content. A message of another type, which the RFC asks receivers to ignore, is an error that leaves its content in the buffer (c42_unknown_type)."},
 {"property": "C52", "status": "partial", "theorems": ["Verif.Props.c52_when", "Verif.Props.c52_keeps_partial", "Verif.Props.c52_microsecond_lost", "Verif.Props.c52_roundtrip"], "note": "Everything is kept except that the microseconds may come out one less, because convert_timestamp truncates (witness from a parsed message)."},
 {"property": "C63", "status": "partial", "theorems": ["Verif.Props.c63_message", "Verif.Props.c63_message_partial", "Verif.Props.c63_initiation_total", "Verif.Props.c63_ascii", "Verif.Props.c63_utf8_garbled", "Verif.Props.c63_empty_tlv_dropped", "Verif.Props.c63_truncated_tlv_dropped", "Verif.Props.c63_code_length_ignored", "Verif.Props.c63_flags", "Verif.Props.c63_peer", "Verif.Props.c63_openbmp_header", "Verif.Props.c63_openbmp", "Verif.Props.c63_openbmp_lengths_unchecked"], "note": "Accepted if and only if the content has the layout; the layout relation says which trailing octets are tolerated. Not as the RFC: a final empty TLV and a truncated TLV are dropped silently, the length of reason and information codes is not used, UTF-8 text is returned garbled, OpenBMP lengths are not checked (all with witnesses)."},
 {"property": "C38", "status": "partial", "theorems": ["Verif.Props.c38_accounts", "Verif.Props.c38_ordered", "Verif.Props.c38_clean", "Verif.Props.c38_file_partial", "Verif.Props.c38_report", "Verif.Props.c38_isolated_partial", "Verif.Props.c38_text", "Verif.Props.c38_interrupted", "Verif.Props.c38_false_io"], "note": "Accounting, order, termination and clean streams hold for every reader. The exact report for a file needs a reader that does not say Interrupted (c38_interrupted: a scan does not retry it), and damage that the body parser reports as an I/O error in a record following a damaged one ends recovery although the reader is fine (c38_false_io)."},
 {"property": "C39", "status": "partial", "theorems": ["Verif.Props.c39_gap", "Verif.Props.c39_first_partial", "Verif.Props.c39_limit_exceeded"], "note": "Every gap is followed by what its evidence says. A gap to the end of the stream may exceed the limit by five bytes (c39_limit_exceeded). That the place is the first that qualifies is proved for readers without Interrupted."},
 {"property": "C64", "status": "proved", "theorems": ["Verif.Props.c64_elements"], "note": ""},
 {"property": "C47", "status": "partial", "theorems": ["Verif.Props.c47_export", "Verif.Props.c47_refused", "Verif.Props.c47_failed_export", "Verif.Props.c47_fails_iff", "Verif.Props.c47_read_back_partial", "Verif.Props.c47_small", "Verif.Props.c47_long_attribute", "Verif.Props.c47_path_ids_collapse", "Verif.Props.c47_peers_merged", "Verif.Props.c47_withdrawal_stored", "Verif.Props.c47_refused_sets_time"], "note": "The file, the state afterwards, the refused elements and the failing exports are described exactly, for every history of calls and every hash map order. Reading back needs announcements with a next hop of the prefix's family, and all or none of the elements for a prefix with a path identifier. The property fails for routes that differ in the path identifier only, peers with the same address, withdrawals (witnesses), and one attribute of more than 255 octets makes every export fail (c47_long_attribute)."},
 {"property": "C65", "status": "partial", "theorems": ["Verif.Props.c65_export", "Verif.Props.c65_fails_iff", "Verif.Props.c65_read_back_partial", "Verif.Props.c65_long_attribute", "Verif.Props.c65_ipv6_next_hop"], "note": "Holds for elements without path identifier whose announcements have an IPv4 next hop, if every attribute has at most 255 octets. An IPv6 next hop is read back as an IPv4 address (c65_ipv6_next_hop); one attribute of more than 255 octets makes every export fail."},
 {"property": "C66", "status": "partial", "theorems": ["Verif.Props.c66_routes", "Verif.Props.c66_unique", "Verif.Props.c66_core_dump", "Verif.Props.c66_fallible", "Verif.Props.c66_record_alike", "Verif.Props.c66_alike", "Verif.Props.c66_unknown_peer", "Verif.Props.c66_malformed_nlri", "Verif.Props.c66_table_dump_as4_path", "Verif.Props.c66_table_dump_cut", "Verif.Props.c66_no_panic", "Verif.Props.c66_errors", "Verif.Props.c66_errors_differ"], "note": "The routes of every stream are described exactly (c66_routes, c66_unique), also with errors. They are those of the element iterator for streams whose records are all of the kind Alike. They are not for RIB entries with unknown peers, UPDATEs with an unreadable prefix, TABLE_DUMP entries with AS4_PATH and TABLE_DUMP records cut short (witnesses). The variant that reports errors reports one for exactly the records of Spec/RouteErr.lean (c66_errors); these are not the records the record iterator reports (c66_errors_differ)."},
 {"property": "C53", "status": "partial", "theorems": ["Verif.Props.c53_bgp_tree", "Verif.Props.c53_bgp_described", "Verif.Props.c53_mrt_tree", "Verif.Props.c53_mrt_described", "Verif.Props.c53_record", "Verif.Props.c53_no_panic", "Verif.Props.c53_nested_partial", "Verif.Props.c53_nested_without_trailing", "Verif.Props.c53_declared_length", "Verif.Props.c53_trailing_outside", "Verif.Props.c53_find"], "note": "Every byte string below 4 GiB has a description and the dissector returns its tree exactly; the tree is nested except that bgp.trailing lies behind its parent (c53_trailing_outside), which cannot happen if the message declares at least what is given (c53_declared_length). Labels are not modelled."},
 {"property": "C67", "status": "proved", "theorems": ["Verif.Props.c67_findings", "Verif.Props.c67_file", "Verif.Props.c67_records", "Verif.Props.c67_ends", "Verif.Props.c67_fused", "Verif.Props.c67_text", "Verif.Props.c67_stops_reading", "Verif.Props.c67_event", "Verif.Props.c67_no_panic", "Verif.Props.c67_chunking", "Verif.Props.c67_dissected"], "note": "For files below 4 GiB per record as everywhere in the dissectors (records are at most 16 MiB). Update and record streams only; text input gives no events (c67_text). The byte ranges of findings are C68."},
 {"property": "C68", "status": "proved", "theorems": ["Verif.Props.c68_update", "Verif.Props.c68_refresh", "Verif.Props.c68_other", "Verif.Props.c68_inside", "Verif.Props.c68_complete"], "note": "The ranges are stated against the layout of the record (Spec/Spans.lean): which warning is due to which attribute is read off by parsing the section with and without it. An OPEN message has no findings."},
 {"property": "C69", "status": "proved", "theorems": ["Verif.Props.c69_updates", "Verif.Props.c69_fallible", "Verif.Props.c69_file", "Verif.Props.c69_elements", "Verif.Props.c69_chunking", "Verif.Props.c69_text", "Verif.Props.c69_timestamp", "Verif.Props.c69_one_bad_record_ends_iteration"], "note": "Stated against the records of default iteration (C21-C25), which one record whose body ends in an I/O error ends early (c69_one_bad_record_ends_iteration). The iterators do not look at filters. Errors: for readers that do not fail for ever."},
 {"property": "C48", "status": "proved", "theorems": ["Verif.Props.c48_parsers", "Verif.Props.c48_records", "Verif.Props.c53_no_panic", "Verif.Props.c67_no_panic", "Verif.Props.c66_no_panic", "Verif.Props.c06_as4_no_panic"], "note": "For every byte string and every reader. Allocation failure and stack depth are not modelled. Encoders can panic on values that no parser returns (c43_encode_panic, c40_length_panics)."},
 {"property": "C70", "status": "partial", "theorems": ["Verif.Props.c70_table", "Verif.Props.c70_violated_shift", "Verif.Props.c70_violated_long", "Verif.Props.c70_violated_internal", "Verif.Props.c70_violated_set", "Verif.Props.c70_violated_metric"], "note": "Proved for dumps in the layout of Spec/TextDump.lean: every field inside its column, AS paths of numbers. Refuted for rows shifted to the left whose next hop is an address without its first character, prefix-only lines longer than the prefix column, the iBGP flag in the fourth byte, AS sets and metrics wider than their column. The address parsers of std and ipnet are parameters (AddrSyntax)."},
 {"property": "C71", "status": "proved", "theorems": ["Verif.Props.c71_header", "Verif.Props.c71_fails", "Verif.Props.c70_table"], "note": "The preamble (router address and AS number) is part of c70_table."},
 {"property": "C72", "status": "partial", "theorems": ["Verif.Props.c72_mrt", "Verif.Props.c72_mrt_records", "Verif.Props.c72_text", "Verif.Props.c72_empty", "Verif.Props.c72_fails", "Verif.Props.c72_violated_short", "Verif.Props.c72_violated_cut", "Verif.Props.c72_violated_interrupted", "Verif.Props.c72_violated_mrt"], "note": "No byte is lost or repeated, for every reader. Which format is chosen depends on the size of the first read (refuted: c72_violated_*)."},
 {"property": "C73", "status": "partial", "theorems": ["Verif.Props.c73_minute", "Verif.Props.c73_day", "Verif.Props.c73_none", "Verif.Props.c73_calendar", "Verif.Props.c73_unique", "Verif.Props.c73_violated"], "note": "Against a calendar given by its successor relation (Spec/TextTime.lean). Refuted: an invalid date hides a valid one after it (c73_violated)."},
 {"property": "C74", "status": "partial", "theorems": ["Verif.Props.c74_chunking", "Verif.Props.c74_collect", "Verif.Props.c74_filter", "Verif.Props.c74_ascii", "Verif.Props.c74_violated_error", "Verif.Props.c74_violated_utf8", "Verif.Props.c74_violated_resume", "Verif.Props.c74_violated_panic"], "note": "Refuted: read errors and lines that are not UTF-8 end the iteration silently, iteration resumes after None, text that is not ASCII can panic."},
 {"property": "C75", "status": "proved", "theorems": ["Verif.Props.c75_line", "Verif.Props.c75_psv", "Verif.Props.c75_route", "Verif.Props.c75_route_elem", "Verif.Props.c75_origin"], "note": "Against Spec/Display.lean. The output of std for IPv6 addresses and floating point numbers is a parameter with the assumptions of ShowOk (characters, colons, injectivity)."},
 {"property": "C76", "status": "partial", "theorems": ["Verif.Props.c76_line_partial", "Verif.Props.c76_psv_partial", "Verif.Props.c76_route_partial", "Verif.Props.c76_path", "Verif.Props.c76_violation_path_id", "Verif.Props.c76_violation_path", "Verif.Props.c76_violation_redirect", "Verif.Props.c76_violation_empty"], "note": "Two lines are equal if and only if SameShown holds. Refuted in full: path identifiers, confederation segments, segment bounds, the kind of a redirect, absent as opposed to empty lists are not shown."},
 {"property": "C77", "status": "proved", "theorems": ["Verif.Props.c77_parse", "Verif.Props.c77_roundtrip", "Verif.Props.c77_unique"], "note": ""},
 {"property": "C78", "status": "partial", "theorems": ["Verif.Props.c78_order_partial", "Verif.Props.c78_route_partial", "Verif.Props.c78_sortable", "Verif.Props.c78_violation"], "note": "Total and transitive. Refuted: different elements compare as equal (c78_violation), contrary to the contract of Ord with Eq. Times are numbers; a NaN set by a caller would panic."},
 {"property": "C79", "status": "partial", "theorems": ["Verif.Props.c79_flat_form", "Verif.Props.c79_verbose_form", "Verif.Props.c79_read_verbose", "Verif.Props.c79_read_flat", "Verif.Props.c79_roundtrip_partial", "Verif.Props.c79_lost", "Verif.Props.c79_unique"], "note": "On JSON values; for texts see C98. Refuted in full: empty sequences of a path in the flat form are lost (c79_lost)."},
 {"property": "C80", "status": "partial", "theorems": ["Verif.Props.c80_elem_partial", "Verif.Props.c80_route_partial", "Verif.Props.c80_order", "Verif.Props.c80_document", "Verif.Props.c80_violation_rate"], "note": "std's and serde_json's conversions of addresses and floats are parameters with the assumptions of JsonOk. Missing: paths with empty sequences (C79) and communities with a NaN or infinite rate, whose document is refused (c80_violation_rate)."},
 {"property": "C81", "status": "partial", "theorems": ["Verif.Props.c81_message", "Verif.Props.c81_elements", "Verif.Props.c81_only", "Verif.Props.c81_other_messages", "Verif.Props.c81_notices", "Verif.Props.c81_refused", "Verif.Props.c81_error_origin", "Verif.Props.c81_error_aggregator", "Verif.Props.c81_error_prefix", "Verif.Props.c81_time", "Verif.Props.c81_violation_silent"], "note": "The reading of JSON text and std's parsing of addresses are parameters. Refuted in full: an UPDATE with one field of a wrong form gives no elements and no error (c81_violation_silent). Missing: nothing else."},
 {"property": "C82", "status": "partial", "theorems": ["Verif.Props.c82_elements", "Verif.Props.c82_update_partial", "Verif.Props.c82_encoded_partial", "Verif.Props.c82_only", "Verif.Props.c82_refused", "Verif.Props.c82_full", "Verif.Props.c82_violation_fallback", "Verif.Props.c82_violation_old_session"], "note": "With C32 and C16 for what the elements of a message are. Refuted in full: the attempt with two-octet AS numbers never gives a message (c82_violation_fallback), so AS paths of such sessions are lost (c82_violation_old_session)."},
 {"property": "C83", "status": "proved", "theorems": ["Verif.Props.c83_subscription", "Verif.Props.c83_messages", "Verif.Props.c83_commute"], "note": "On JSON values; for the texts sent see C98."},
 {"property": "C84", "status": "partial", "theorems": ["Verif.Props.c84_expression", "Verif.Props.c84_complement", "Verif.Props.c84_selects", "Verif.Props.c84_stops", "Verif.Props.c84_violation_empty_item", "Verif.Props.c84_violation_tab", "Verif.Props.c84_violation_panic"], "note": "The arguments are taken as clap delivers them. Refuted in full: a bad value of --as-path, --community, --elem-type or of a time is a panic (c84_violation_panic); a list that ends with a comma is accepted with = and refused with != (c84_violation_empty_item); a tabulator in a list is accepted with != and refused with = (c84_violation_tab)."},
 {"property": "C85", "status": "partial", "theorems": ["Verif.Props.c85_elements", "Verif.Props.c85_elements_count", "Verif.Props.c85_records", "Verif.Props.c85_records_count", "Verif.Props.c85_hex", "Verif.Props.c85_main_elements", "Verif.Props.c85_main_elements_count", "Verif.Props.c85_main_records", "Verif.Props.c85_main_records_count", "Verif.Props.c85_main_hex", "Verif.Props.c85_main_recovering", "Verif.Props.c85_hex_refused", "Verif.Props.c85_no_panic", "Verif.Props.c85_format", "Verif.Props.c85_status", "Verif.Props.c85_example", "Verif.Props.c85_violation_count"], "note": "The texts of JSON and of records are parameters. Refuted in full: with the text format, or together with --records-count, --elems-count counts elements that do not pass the filters (c85_violation_count)."},
 {"property": "C86", "status": "partial", "theorems": ["Verif.Props.c86_reads", "Verif.Props.c86_hex", "Verif.Props.c86_same_partial", "Verif.Props.c86_violation_path_id", "Verif.Props.c86_violation_entry_path_id", "Verif.Props.c86_violation_flowspec", "Verif.Props.c86_example"], "note": "Derived Debug texts and the texts of warnings are parameters, assumed to be single lines. Refuted in full: path identifiers of prefixes and of RIB entries are not shown, and flow specifications are only counted, so different routes can read the same."},
 {"property": "C87", "status": "partial", "theorems": ["Verif.Props.c87_call", "Verif.Props.c87_nothing", "Verif.Props.c87_part", "Verif.Props.c87_stream", "Verif.Props.c87_split", "Verif.Props.c87_pieces", "Verif.Props.c87_json", "Verif.Props.c87_violation_bad_record"], "note": "Proved for every input up to the first record that does not parse. Refuted in full: such a record is not reported as an error; the call returns what it returns at the end of the input, and the records behind it are lost, while the iterator over the same file goes on."},
 {"property": "C88", "status": "proved", "theorems": ["Verif.Props.c88_peer", "Verif.Props.c88_bmp", "Verif.Props.c88_openbmp", "Verif.Props.c88_openbmp_other"], "note": "Texts of addresses, strings and termination values are parameters; timestamps are rational numbers as in C63."},
 {"property": "C89", "status": "proved", "theorems": ["Verif.Props.c89_update", "Verif.Props.c89_dissect_mrt", "Verif.Props.c89_dissect_nothing", "Verif.Props.c89_agree", "Verif.Props.c89_dissect_bgp"], "note": "Results before serialization; dissection of BGP messages below 4 GiB."},
 {"property": "C90", "status": "proved", "theorems": ["Verif.Props.c90_new", "Verif.Props.c90_flags", "Verif.Props.c90_filters", "Verif.Props.c90_fails", "Verif.Props.c90_elems", "Verif.Props.c90_same", "Verif.Props.c90_text"], "note": "Filter texts, regular expressions and address parsers are parameters as in C33."},
 {"property": "C91", "status": "proved", "theorems": ["Verif.Props.c91_log", "Verif.Props.c91_dump", "Verif.Props.c91_file", "Verif.Props.c91_elems", "Verif.Props.c91_damaged"], "note": "For the record and element iterators. A log line is its level and the kind of the error; the file can always be written."},
 {"property": "C92", "status": "partial", "theorems": ["Verif.Props.c92_crc", "Verif.Props.c92_crc_unique", "Verif.Props.c92_hex", "Verif.Props.c92_crc_burst", "Verif.Props.c92_name", "Verif.Props.c92_file_name", "Verif.Props.c92_inside", "Verif.Props.c92_same", "Verif.Props.c92_distinct_partial", "Verif.Props.c92_collision", "Verif.Props.c92_not_documented"], "note": "The checksum is CRC-32 for every text, and names are equal exactly if file name and checksum are; paths of the same length that differ within four bytes in a row have different names. Refuted in full: the name has another form than documented, its checksum is that of the path and not of the file name, and two different paths can have the same name."},
 {"property": "C93", "status": "partial", "theorems": ["Verif.Props.c93_raw", "Verif.Props.c93_same_partial", "Verif.Props.c93_zebra", "Verif.Props.c93_zebra_differs", "Verif.Props.c93_text"], "note": "Everything but the remark about Zebra records is the same. The remark is made once if a record looked at has the short shape; the record iterator makes it only if such a record also parses. Refuted: a record in the short shape that does not parse makes the logs differ."},
 {"property": "C94", "status": "partial", "theorems": ["Verif.Props.c94_write", "Verif.Props.c94_append_partial", "Verif.Props.c94_behind_torn"], "note": "Holds up to and including the first append that does not return Ok: all records before it are read, and the part is reported as an early end. Refuted for what is appended later: behind a part of a record it is not found."},
 {"property": "C95", "status": "partial", "theorems": ["Verif.Props.c95_read", "Verif.Props.c95_accepted", "Verif.Props.c95_calls", "Verif.Props.c95_metric_partial", "Verif.Props.c95_router_ids", "Verif.Props.c95_violation_small_metric"], "note": "Proved for every sequence of TLVs and of calls; an f32 is its 32 bits and the factor of the loss is not modelled. Refuted for an IGP metric in one octet: the two bits that must be ignored are part of the number."},
 {"property": "C96", "status": "partial", "theorems": ["Verif.Props.c96_read", "Verif.Props.c96_methods", "Verif.Props.c96_calls", "Verif.Props.c96_by_type", "Verif.Props.c96_port", "Verif.Props.c96_violation_endpoint", "Verif.Props.c96_violation_color", "Verif.Props.c96_violation_preference"], "note": "Proved: the tunnels read, first sub-TLV of the type, UDP port, search by type. Refuted for the other three methods: no egress endpoint of RFC 9012 is returned, the colour returned does not depend on the colour, the preference returned is that of RFC 9830 divided by 65536 plus flags."},
 {"property": "C97", "status": "partial", "theorems": ["Verif.Props.c97_records_partial", "Verif.Props.c97_raw_partial", "Verif.Props.c97_threads_partial", "Verif.Props.c97_threads_end", "Verif.Props.c97_violation_second_table", "Verif.Props.c97_violation_late_table"], "note": "Proved for all schedules, numbers of threads and chunk sizes if only the first record is a peer index table (or none is). Refuted for a second table (routes are given to peers of the first) and for a table that is not the first record (its routes are lost)."},
 {"property": "C98", "status": "partial", "theorems": ["Verif.Props.c98_text", "Verif.Props.c98_value", "Verif.Props.c98_path_partial", "Verif.Props.c98_elem_partial", "Verif.Props.c98_route_partial", "Verif.Props.c98_one_line", "Verif.Props.c98_command_partial", "Verif.Props.c98_client"], "note": "serde_json is modelled as a writer of both forms; the reader is part of the specification. The texts of real numbers (ryu) are parameters with the assumptions of RealText. Partial as C79 and C80: paths with empty sequences in the flat form and communities with a NaN are not kept. c98_text, c98_value, c98_one_line and c98_client are complete."},
 {"property": "C99", "status": "partial", "theorems": ["Verif.Props.c99_prefixes_partial", "Verif.Props.c99_violation_safi", "Verif.Props.c99_violation_no_flowspec", "Verif.Props.c99_violation_flowspec", "Verif.Props.c99_violation_vpn"], "note": "Proved: link-state attributes and announcements of labelled routes have no prefixes, and the prefixes of other families are those of the list in the attribute. Refuted in full: the SAFI is not looked at (c99_violation_safi), so flow specifications and VPN routes are read as prefixes and shown as announcements (witnesses), and no attribute is ever read as flow specifications (c99_violation_no_flowspec)."},
 {"property": "C100", "status": "partial", "theorems": ["Verif.Props.c100_describes", "Verif.Props.c100_iter", "Verif.Props.c100_next_hop", "Verif.Props.c100_labels", "Verif.Props.c100_link_local_partial", "Verif.Props.c100_route_partial", "Verif.Props.c100_labeled_partial", "Verif.Props.c100_violation_link_local", "Verif.Props.c100_violation_labeled_withdrawals", "Verif.Props.c100_violation_withdrawals_lost", "Verif.Props.c100_violation_link_state", "Verif.Props.c100_violation_link_state_lost", "Verif.Props.c100_violation_flowspec", "Verif.Props.c100_violation_no_next_hop"], "note": "Proved: accessors, iteration, labels, and that single announced and withdrawn routes and lists of labelled announcements survive being written. Refuted: withdrawn labelled routes are lost whatever they are, link-state NLRI except for their types, FlowSpec NLRI always, an announcement without next hop; a next hop of two addresses is called link-local although the address it gives is global."},
 {"property": "C101", "status": "partial", "theorems": ["Verif.Props.c101_unique", "Verif.Props.c101_raw", "Verif.Props.c101_records_partial", "Verif.Props.c101_lost", "Verif.Props.c101_fallible", "Verif.Props.c101_elems_partial", "Verif.Props.c101_fallible_elems", "Verif.Props.c101_updates_partial", "Verif.Props.c101_fallible_updates", "Verif.Props.c101_routes", "Verif.Props.c101_not_independent"], "note": "Proved without condition on the records for raw records, for the fallible record and announcement iterators; for elements and routes if the first file has no peer index table or the second has one before its RIB records; for the iterators that skip errors if no record of the first file ends the iteration. Both conditions are needed: c101_lost shows that behind a record that ends the iteration nothing is given, c101_not_independent that RIB records without a table are given to the peers of the first file."},
 {"property": "C102", "status": "partial", "theorems": ["Verif.Props.c102_parse", "Verif.Props.c102_message_partial", "Verif.Props.c102_update_partial", "Verif.Props.c102_rib_entry_partial", "Verif.Props.c102_table_dump_partial", "Verif.Props.c102_aggregator_order", "Verif.Props.c102_as4_not_ignored", "Verif.Props.c102_duplicates"], "note": "Proved for every permutation of complete attributes without two of a kind, from the octets to the elements; warnings and presence also with duplicates. Missing because the code violates it: AGGREGATOR and AS4_AGGREGATOR together (the later one wins), duplicates (elements have the last, accessors the first)."},
 {"property": "C103", "status": "proved", "theorems": ["Verif.Props.c103_update", "Verif.Props.c103_message", "Verif.Props.c103_record", "Verif.Props.c103_file", "Verif.Props.c103_fallible", "Verif.Props.c103_raw", "Verif.Props.c103_reserve"], "note": "Counts elements, records and errors, not the octets each of them occupies in memory: an element repeats the attributes of its message."},
 {"property": "C104", "status": "partial", "theorems": ["Verif.Props.c104_peer_equality", "Verif.Props.c104_peer_hash_partial", "Verif.Props.c104_peer_keys", "Verif.Props.c104_stripped", "Verif.Props.c104_peer_violated", "Verif.Props.c104_elem_cmp", "Verif.Props.c104_attr_types", "Verif.Props.c104_attr_type_back", "Verif.Props.c104_attr_type_violated", "Verif.Props.c104_header_equality", "Verif.Props.c104_asn_unsigned", "Verif.Props.c104_asn_signed", "Verif.Props.c104_asn_encode", "Verif.Props.f64_eq_values", "Verif.Props.f64_cmp_values", "Verif.Props.f64_has_bits"], "note": "Refuted for values made by hand: headers with times 0.0 and -0.0 are equal and hash differently, one with NaN does not equal itself (c104_peer_violated); Unknown(1) and ORIGIN compare as equal and are not (c104_attr_type_violated). That times read from messages have no minus sign and are no NaN is IEEE arithmetic on non-negative numbers and not proved here; that each such number has exactly the bits assumed is (f64_has_bits)."},
 {"property": "C105", "status": "proved", "theorems": ["Verif.Props.c105_attributes", "Verif.Props.c105_attributes_again", "Verif.Props.c105_update", "Verif.Props.c105_message", "Verif.Props.c105_rib", "Verif.Props.c105_exceptions"], "note": "Both directions: what is not on the list comes back, what is on it does not. c105_exceptions has an accepted input for seven kinds of exception."},
 {"property": "C106", "status": "proved", "theorems": ["Verif.Props.c106_body", "Verif.Props.c106_read", "Verif.Props.c106_iterators", "Verif.Props.c106_record", "Verif.Props.c106_file", "Verif.Props.c106_geo_name"], "note": "Bodies and records in both directions. Records are the same up to what is not sent (SameMrt, SameRecord: warnings of attribute sets, the extended flag of an OPEN, the length field)."},
 {"property": "C107", "status": "partial", "theorems": ["Verif.Props.c107_alone", "Verif.Props.c107_mrt", "Verif.Props.c107_legacy", "Verif.Props.c107_bmp_partial", "Verif.Props.c107_openbmp", "Verif.Props.c107_bmp_mrt_partial", "Verif.Props.c107_live_partial", "Verif.Props.c107_violation_add_path"], "note": "Complete for MRT. BMP and RIS Live messages always are read as those of a session without path identifiers, and RIS Live messages as with four-octet AS numbers: for other sessions the claim is false (c107_violation_add_path; c82_violation_old_session)."},
 {"property": "C108", "status": "proved", "theorems": ["Verif.Props.c108_iterators", "Verif.Props.c108_bandwidths", "Verif.Props.c108_iterators_same", "Verif.Props.c108_value_document", "Verif.Props.c108_next_hop_document", "Verif.Props.c108_link_state_document", "Verif.Props.c108_flowspec_document", "Verif.Props.c108_announcement_same", "Verif.Props.c108_attributes_same", "Verif.Props.c108_announcement_partial", "Verif.Props.c108_rib_entry_partial", "Verif.Props.c108_update_partial", "Verif.Props.c108_attributes_partial", "Verif.Props.c108_value_partial", "Verif.Props.c108_path", "Verif.Props.c108_read_attributes", "Verif.Props.c108_read_update", "Verif.Props.c108_read_record", "Verif.Props.c108_read_iterators", "Verif.Props.c108_name", "Verif.Props.c108_flags", "Verif.Props.c108_documents", "Verif.Props.c108_nlri_document", "Verif.Props.c108_label", "Verif.Props.c108_violation_floats", "Verif.Props.c108_violation_warnings", "Verif.Props.c108_violation_mask", "Verif.Props.c108_violation_labels"], "note": "Complete for what the iterators yield. The theorems with the suffix _partial, about values that a user builds, leave out ATTR_SET (no parser makes it; its nested attributes are not in the model). That serde_json, std and ipnet read back the addresses, times and finite floats they write is assumed (JsonOk, FloatOk), not proved."},
 {"property": "C109", "status": "proved", "theorems": ["Verif.Props.c109_iterator", "Verif.Props.c109_command", "Verif.Props.c109_elem", "Verif.Props.c109_route", "Verif.Props.c109_same", "Verif.Props.c109_texts", "Verif.Props.c109_announcement", "Verif.Props.c109_read_announcements", "Verif.Props.c109_read_record", "Verif.Props.c109_iterator_prefix"], "note": "Complete for what the iterators yield. That std, ipnet and serde_json read back the addresses, times and finite floats they write is assumed (JsonOk, FloatOk, NumbersOk, RealText), as in C80 and C98."},
 {"property": "C110", "status": "partial", "theorems": ["Verif.Props.c110_value_partial", "Verif.Props.c110_nlri", "Verif.Props.c110_count", "Verif.Props.c110_nlri_count", "Verif.Props.c110_header", "Verif.Props.c110_open", "Verif.Props.c110_open_params", "Verif.Props.c110_open_short_count", "Verif.Props.c110_notification", "Verif.Props.c110_refresh", "Verif.Props.c110_small_count", "Verif.Props.c110_record_partial", "Verif.Props.c110_record_count", "Verif.Props.c110_mp_message", "Verif.Props.c110_mp_state_partial", "Verif.Props.c110_mp_count", "Verif.Props.c110_violation_microseconds", "Verif.Props.c110_violation_state", "Verif.Props.c110_attributes", "Verif.Props.c110_attributes_read", "Verif.Props.c110_update_partial", "Verif.Props.c110_update_count", "Verif.Props.c110_violation_section", "Verif.Props.c110_violation_aggregator", "Verif.Props.c110_violation_labeled", "Verif.Props.c110_violation_path_id"], "note": "Holds for every value for which valueShown says what should be shown. Excluded because it fails, with witnesses: an AGGREGATOR of an odd length, refused by the parser, is shown; labelled prefixes are shown as plain ones with the label in the address; prefixes for which the parser guesses path identifiers are shown without them. Not specified: extended communities kept raw or with lost octets, development, tunnel, link-state and other attributes for which the dissection shows no content. Also excluded with a witness: prefixes of a malformed section that precede the mistake are shown although the parser drops them. At the MRT level, excluded with witnesses: ISIS_ET and OSPFv3_ET records, of which the dissection shows four octets of the body as microseconds, and the session states Clearing and Deleted, shown as Unknown. Record types without a name in the dissection are shown as UNKNOWN with their number. The tree (fields, spans) is the subject of C53, and the labels are related to its nodes by their number and order only (c110_count, for every input)."}
]}
