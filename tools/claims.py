claim("C01", "proved", ["C01_frame_layout", "C01_frame_roundtrip", "C01_frame_any_size", "C01_send_loop"],
      "Layout, round-trip with arbitrary following bytes, exact behaviour beyond the 16-bit length field, partial socket writes.")
claim("C02", "proved", ["C02_frames_in_order"])
claim("C03", "proved", ["C03_items_layout", "C03_items_roundtrip"])
claim("C04", "proved", ["C04_items_hostile", "C04_getters", "C04_item_read"])
claim("C05", "proved", ["C05_class", "C05_instance", "C05_attribute", "C05_decoders_sound", "C05_getAttrSingle_path"])
claim("C06", "partial", ["C06_path_even", "C06_word_count", "C06_getAttrSingle", "C06_declared_length", "C06_declared_length_partial", "C06_element_length_wrong"],
      "Holds for the word counts computed from bytes. Missing: the declared Len() of an element segment disagrees with its bytes for 65535 (C06_element_length_wrong).")
claim("C07", "partial", ["C07_element_partial", "C07_element_32bit_wrong", "C07_element_injective"],
      "Injective for all elements, decodable below 65536; the 32-bit form uses the 16-bit segment code 0x29, so a decoder does not recover it (C07_element_32bit_wrong).")
claim("C08", "partial", ["C08_tag_path_roundtrip_partial", "C08_count_eaten", "C08_index32_lost", "getTagFromPath_fuel"],
      "Round-trip whenever the byte after the path is not 0x28, 0x29 or 0x91. Otherwise false: the server ignores the announced path length, so e.g. an element count of 40 is taken for an index (C08_count_eaten, for every path). 32-bit indices are not understood (C08_index32_lost).")
claim("C09", "proved", ["C09_request_path_denotes", "C09_request_paths_differ", "C09_known_tags_differ"])
claim("C10", "proved", ["C10_case_and_history", "C10_same_later"], "Letter case for ASCII letters.")
claim("C11", "proved", ["C11_symbolic_path_wellformed", "C11_known_path_wellformed", "C11_announced_length", "C11_long_name_wrong", "C11_long_name_cut"],
      "C11_long_name_wrong shows why the 255 byte limit of the claim is needed; C11_long_name_cut that every longer name is sent as another, shorter one.")
claim("C55", "partial", ["C55_no_panic_partial", "C55_unbalanced_bracket_panics", "C55_crash_exact", "C55_never_refused", "C55_crash_always"],
      "False in general: a name part that ends in ] and has no [ panics, and exactly such names do (C55_crash_exact), each time they are used; no name is ever refused with an error (C55_never_refused).")
claim("C12", "partial", ["C12_bit_of_value_partial", "C12_read_bit_partial", "C12_bit_path_partial", "C12_sint_refused", "C12_out_of_range_silent", "C12_bit_number_limit", "C12_high_bit_member"],
      "Holds for every integer type but SINT and bit numbers inside the width (31 at most in a tag name). SINT bits are always refused, a bit number outside the width silently reads false, bits 32..63 of a LINT cannot be named (C12_high_bit_member: the number is asked for as a member, for every tag).")
claim("C13", "proved", ["C13_value_roundtrip", "C13_layout", "C13_type_codes", "C13_consumes", "C13_ulint_unreadable"])
claim("C14", "partial", ["C14_bools_partial", "C14_not_multiple_rejected", "C14_empty_panics"],
      "One word or more, up to the 16-bit element count, fragmented or not. An empty slice panics.")
claim("C15", "partial", ["C15_footprint", "C15_string_array_element", "C15_string_partial", "C15_long_string_overclaims", "C15_written"],
      "Full for elements of string slices. A single string longer than 84 bytes is written with a length field beyond its data (C15_long_string_overclaims, for every such string).")
claim("C20", "partial", ["C20_requests", "C20_reassembly_partial", "C20_offsets_partial", "C20_struct_refused"],
      "Full for non-structured types. A fragmented structure is refused with an error.")
claim("C56", "partial", ["C56_typed", "C56_read_scalar", "C56_read_array_partial", "C56_read_string", "C56_one_element_refused", "C56_empty_slice_panics"],
      "Scalars, strings, slices of two or more. A slice of length one is never filled, an empty slice panics.")
claim("C21", "partial", ["C21_readList_partial", "C21_readBatches_partial", "C21_untyped_struct_overruns", "C21_sint_bit_nil"],
      "For every list of tags and every truthful sequence of replies, for scalars, arrays, bits, strings, string arrays and sized structures. False for structures read without a type (C21_untyped_struct_overruns) and bits of SINT (C21_sint_bit_nil).")
claim("C22", "partial", ["C22_readList_partial", "C22_readBatches_partial", "C22_oversized_tag_loops", "C22_empty_reply"],
      "The requests are consecutive slices of the tag list that concatenate to it. A tag whose request alone exceeds the connection size makes readList split into an empty and the same list for ever (C22_oversized_tag_loops).")
claim("C23", "partial", ["C23_request_within_one", "C23_request_fits_partial", "C23_reply_data_partial", "C23_readMulti_partial", "C23_odd_size_exceeded", "C23_readMulti_exceeds", "C23_reply_exceeds", "C23_reply_bound_partial", "C23_string_replies"],
      "ReadList/ReadMap requests and reply data stay within the size when it is even (one byte over if it is odd). False for ReadMulti, which only counts the embedded requests, and for replies, whose headers are not counted (8 bytes and 8 for each number, C23_reply_bound_partial); of strings all but one byte each is not counted (C23_string_replies: as many as fit in the request are asked for at once).")
claim("C24", "proved", ["C24_packet", "C24_read_requests"], "C24_packet holds for any embedded requests, so also for WriteMap (C54).")
claim("C25", "partial", ["C25_read", "C25_readT", "C25_fragment", "C25_multi", "C25_multi_embedded", "C25_write", "C25_getAttrList", "C25_generic", "C25_forward_open", "C25_getAttrSingle_ignores", "C54_rejection_ignored"],
      "Holds for single, fragmented and multi reads, writes, attribute lists, generic messages and connecting. False for GetAttrSingle and WriteMap, which never look at the status.")
claim("C26", "partial", ["C26_crash_iff", "C26_read_partial", "C26_readT", "C26_string_array_crash", "C26_write_partial", "C26_getAttrSingle_partial", "C26_others_partial", "C26_no_items_crash", "C26_writeMap", "C26_multi_entry_partial", "C26_multi_offset_crash", "C26_readMulti_type_crash", "C26_readMulti_one_element_crash", "C26_readMulti_short_crash"],
      "Single reads of anything but string arrays never crash. Crashes proved: string arrays with a length above 82, replies without items to writes and attribute requests, offsets beyond the packet in multi reads, and type mismatches or one-element slices in ReadMulti.")
claim("C54", "partial", ["C54_writes_partial", "C54_total", "C54_slice_announced_as_one", "C54_rejection_ignored"],
      "One write per entry for maps of single values. Slices are announced as one element and the reply is ignored.")
claim("C57", "partial", ["C57_no_extra_values_partial", "C57_missing_values_accepted", "C57_values_shift"],
      "Never more values than tags. Fewer are accepted, and then later batches' values go to the wrong tags.")
claim("C58", "partial", ["C58_write_value", "C58_write_slice_partial", "C58_write_struct", "C58_bool_slice_type", "C58_count_wraps"],
      "False for []bool (sent as a structure) and for 65536 elements or more (count wraps).")
claim("C59", "partial", ["C59_bit_write_ignores_bit"], "False: the bit number is dropped, for every tag, bit and value.")
claim("C16", "proved", ["C16_roundtrip", "C16_slice"],
      "Every shape of numbers, booleans, arrays and nested structures, also as elements of a slice.")
claim("C17", "partial", ["C17_layout_partial", "C17_aligned_partial", "C17_scalar_bits_partial", "C17_elements_partial", "C17_array_of_structs_unaligned", "C17_array_of_flags"],
      "Every shape without arrays of arrays of booleans, where the structures in arrays need no padding and have no booleans. False for arrays of other structures, which are written without padding and with a byte for every boolean.")
claim("C18", "proved", ["C18_pack_run", "C18_bool_array_is_run", "C18_fresh_byte", "C18_unpack_run", "C18_unpack_short", "C18_nested_array_not_packed"],
      "Boolean fields and arrays of booleans. Arrays of arrays of booleans are not packed (C18_nested_array_not_packed).")
claim("C19", "partial", ["C19_other_bits", "C19_counter_roundtrip", "C19_control_roundtrip", "C19_timer_roundtrip_partial", "C19_timer_drops_bits", "C19_bit_positions", "C19_words", "C19_short_input"],
      "Full for COUNTER and CONTROL. TIMER loses FS, LS, OV and ER.")
claim("C27", "partial", ["C27_success_means", "C27_disconnect_means", "C27_quiescent", "C27_log", "C27_outcome", "C27_refused", "C27_disconnects_end_disconnected", "C27_disconnect_refused_while_connecting"],
      "Every schedule of any number of goroutines. Only missing: a Disconnect called while another goroutine is connecting is refused, and then the client ends connected (C27_disconnect_refused_while_connecting).")
claim("C28", "proved", ["C28_one_dialler", "C28_dial_only_from_disconnected"])
claim("C29", "proved", ["C29_exchanges", "C29_streams", "C29_reply_follows_request"], "See C61 for what this does not give.")
claim("C30", "proved", ["C30_distinct", "C30_repeats", "C30_counts_are_draws", "C30_two_generators"],
      "For the generator `sequencer`. GetAttrList draws from another one (C30_two_generators).")
claim("C60", "proved", ["C60_success_has_reply", "C60_replies_in_order"])
claim("C61", "partial", ["C61_late_reply_to_other_goroutine", "C61_late_reply_alone", "C61_connections_apart_partial"], "False: between the timeout and the Disconnect that follows it another goroutine can use the connection, and the Disconnect itself, with no other goroutine, is handed the late reply to the failed request. Proved for all other connections of the client, such as the one of the next Connect.")
claim("C62", "partial", ["C62_no_crash_partial", "C62_nil_connection_crash", "C62_double_close_crash"],
      "Holds if no dial fails and the keep-alive is not used; both exceptions are proved real.")
claim("C63", "partial", ["C63_failed_connect_leaks", "C63_left_open", "C63_at_most_one_in_use", "C63_connected_open"], "False for a Connect that fails after dialling.  Exactly the connections of such Connects are left open, and every other one is closed when the client is disconnected.")
claim("C31", "proved", ["C31_lookup", "C31_missing", "C31_flag", "C31_close_local"])
claim("C32", "partial", ["C32_scalar", "C32_array", "C32_wire_array", "C32_missing", "C32_narrowed"],
      "Missing: an array from the wire over an array of another element type is converted, which can change the values (C32_narrowed).")
claim("C33", "partial", ["C33_write", "C33_write_same_type", "C33_write_converts", "C33_out_of_range", "C33_failed_write_unchanged", "C33_read_partial", "C33_negative_count_panics", "C33_negative_count_panics_whole"],
      "Missing: negative counts panic instead of being an error.")
claim("C34", "proved", ["C34_route", "C34_other_paths"])
claim("C64", "partial", ["C64_requests_partial", "C64_two_tags_share", "C64_result_changes_later"],
      "Holds for reads completed between requests; false for arrays shared by the application or still being serialised.")
claim("C37", "partial", ["C37_path_panics_iff", "C37_only_hostile_partial", "C37_stream_partial", "C37_crash_path", "C37_crash_open", "C37_crash_zero_interval", "C37_crash_empty_write", "C37_crash_read_count", "C37_crash_multi_offset", "C37_crash_unconnected_send", "C37_crash_send_any", "C37_crash_read_path", "C37_crash_offset_any", "C37_crash_empty_any", "C37_crash_count_any", "C37_crash_interval_any"],
      "False as stated; the requests that can crash the server are characterised, all other bytes cannot. Of the forms, those without a name, without elements, with 0x8000 elements or more, with a negative first offset and with an interval of zero are shown to crash every server, whatever its state and tags (C37_crash_path, C37_crash_open, C37_crash_*_any).")
claim("C38", "partial", ["C38_connected_partial", "C38_unconnected_partial", "C38_unconnected_send_partial", "C38_any_bytes", "C38_register", "C38_get_attr_single_code", "C38_rr_connected_item", "C38_session_not_checked", "C38_list_services_command"],
      "Holds for the other services, connected and unconnected. False: Get_Attribute_Single on a connection is answered with another service code, connected data in SendRRData with a service code made from the sequence number, a foreign session with the registered one, ListServices with another command.")
claim("C39", "partial", ["C39_open", "C39_close", "C39_step", "C39_table_partial", "C39_close_not_acknowledged", "C39_serials_collide"],
      "Opens enter one connection and are answered with its identifiers; the table after any requests holds exactly the opened and not closed connections if serial numbers in use are distinct. False: a close is never acknowledged, and with equal serial numbers a close leaves a connection open.")
claim("C65", "partial", ["C65_close_by_anyone", "C65_stranger_closes", "C65_serial_partial", "C65_named_partial"],
      "False: vendor and originator of a close request are ignored; any peer closes any connection. Proved for the serial number: whatever bytes any peers send, a connection is removed only by a close request that names its serial number, and each removes at most one.")
claim("C40", "partial", ["C40_route", "C40_numbers", "C40_exactly", "C40_dot_first_panics", "C40_dot_accepted"],
      "Proved for routes of numbers, and for numbers followed by addresses. False: a text with a dot is accepted after a number without being a number, and panics when it comes first.")
claim("C41", "partial", ["C41_sticky", "C41_concat", "C41_segment_partial", "C41_address_panics", "C41_index_dropped"],
      "Sticky error and concatenation hold for every call sequence. Missing: element numbers from 65536 and names with an index are mangled; an address as the first route text panics.")
claim("C42", "proved", ["C42_crc", "C42_crc_unique", "C42_burst", "C42_identifier", "C42_builtin_fixed"],
      "The crc16 library is external and modelled from its documented parameters. The built-in types have fixed identifiers.")
claim("C47", "proved", ["C47_tag", "C47_exactly_one", "C47_atomic_no_template", "C47_member", "C47_predefined"])
claim("C48", "proved", ["C48_parse", "C48_publish", "C48_roundtrip"])
claim("C49", "proved", ["C49_record", "C49_short", "C49_all"])
claim("C50", "proved", ["C50_involution", "C50_recognised", "C50_injective"])
claim("C53", "partial", ["C53_complete", "C53_blanks", "C53_cut_name", "C53_cut_header_accepted", "C53_partial_status"],
      "Complete lists are parsed completely; a list cut in a name or marked incomplete is an error. False: a list cut inside the header of an entry is accepted as complete.")
claim("C67", "partial", ["C67_unreadable", "C67_corrected"],
      "False: the announced item length is 10 instead of 20, the client reports an error.")
claim("C46", "partial", ["C46_list_all_partial", "C46_one_entry_pages_never_return", "C46_system_page_never_returns", "C46_error_status_accepted", "C46_not_user_recorded", "C46_fallback"],
      "Every user tag is recorded, and nothing else, when each incomplete reply gets the client on. False: an incomplete reply with one entry, or with system tags of a program only, is asked for forever; error statuses pass for complete lists; programs missing from the program list are recorded as tags.")
claim("C43", "partial", ["C43_distinct_partial", "C43_remove_add_duplicates", "C43_duplicates_after_history", "C43_wraps"],
      "Positions are distinct for up to 65536 tags while nothing is added after a removal. False: a tag added after a removal takes the position of another one, and positions wrap at 65536 tags.")
claim("C44", "partial", ["C44_read_all_partial", "C44_raw_partial", "C44_ulint_unreadable", "C44_long_text_cut", "C44_many_tags_miscounted"],
      "Every tag gets the contents of its own slot for any history without removals, batches of up to 255 tags, types with a decoder and texts up to 82 bytes. False: one ULINT tag makes the whole buffer unreadable, longer texts are cut, batches of 256 and more tags are miscounted.")
claim("C45", "partial", ["C45_expand_partial", "C45_new_group", "C45_group_partial", "C45_names_partial", "C45_unindexed_repeats", "C45_argument_filled", "C45_word_arrays_as_dint", "C45_refused_group_blocks_reads"],
      "Holds for array members that name their first element and arguments without braces. False: a member without an index at its end repeats the same tag; arguments are filled in in turn; WORD arrays are read as DINT; a refused group makes the buffer unreadable.")
claim("C51", "partial", ["C51_converted_partial", "C51_upper_half_saturates", "C51_unsigned_unknown", "C51_bits"],
      "Proved for the signed types, for the lower half of the bit string types, and for bits; false for the upper half of the bit string types (saturated) and for USINT, UINT, UDINT and ULINT (a text instead of a number).")
claim("C68", "partial", ["C68_loads_partial", "C68_array_size", "C68_loaded_partial", "C68_controller_composites_dropped", "C68_two_dimensions_fail", "C68_struct_texts"],
      "Proved for single values of the controller and for values, structures and arrays of programs, when the export loads; false for structures and arrays of the controller (left out), arrays of more than one dimension (the export fails to load) and texts in structures.")
claim("C52", "partial", ["C52_input_sent", "C52_input_received", "C52_output_reaches", "C52_output_unpacked", "C52_output_any", "C52_short_error",
      "C52_short_item_error", "C52_empty_field_accepted", "C52_cut_datagram_accepted", "C52_channels_partial", "C52_channel_skipped"],
      "Proved for inputs, and for outputs of complete datagrams of less than 4096 bytes. False: the end of a cut datagram is read as zeros, a field of size zero lets a shorter payload pass, and the channel provider leaves out all channels from the first one nobody waits at.")
claim("C69", "partial", ["C69_refused_items_partial", "C69_partly_written"],
      "Holds for messages refused before unpacking; false for payloads that end inside the structure: the fields before the end are overwritten.")
claim("C35", "partial", ["C35_value_partial", "C35_element_partial", "C35_array_partial", "C35_bools_refused", "C35_slice_at_element_refused", "C35_single_replaces_array", "C35_new_array_unreadable", "C35_strings_shifted", "C35_forty_unreadable"],
      "Proved for single values (atomic or text up to 82 bytes) written to a whole tag or an array element, and for arrays of two or more elements written to an existing array of the same type. False: arrays of BOOL and arrays written from an element on are refused, an array of one element replaces the array by a value, a new array cannot be read, arrays of STRING are shifted, counts with low byte 0x28, 0x29 or 0x91 are taken for path segments.")
claim("C36", "partial", ["C36_replies_partial", "C36_failing_request", "C36_other_service", "C36_string_write_refused", "C36_fragmented_write_misread"],
      "Proved for any list of reads and writes that succeed one after the other. False: one failing request leaves the whole packet unanswered with the earlier writes done, other services get an empty reply, a STRING write is refused, the offset of a fragmented write is stored as the value.")
claim("C66", "partial", ["C66_described_partial", "C66_name_cut", "C66_semicolon_panics", "C66_length_wraps", "C66_cut_name_accepted", "C66_cycle_never_returns"],
      "Proved for structures of any nesting whose name is followed by nothing and whose definition arrives in one reply. False: a name followed by a semicolon loses its last character, and panics when empty; a reply cut in the last name is accepted; sizes wrap at 64 KiB; structures that contain themselves are asked for without end.")
claim("C70", "partial", ["C70_fields", "C70_request_partial", "C70_connects_partial", "C70_route_cut", "C70_no_route", "C70_odd_route", "C70_odd_route_parsed", "C70_ids_collide"],
      "The fields of the request are proved for every client. The exchange with the server is proved for routes of two bytes and identifiers not in use. False: the server keeps two bytes of longer routes, and takes a segment of the message router for the route when there is none; routes of odd length give a wrong length; clients that choose the same identifier share the older connection.")
claim("C71", "partial", ["C71_request_partial", "C71_closes_partial", "C71_opened_and_closed_partial", "C71_not_acknowledged", "C71_first_left_open"],
      "Proved for serial numbers that are distinct in the table. False: the close is never acknowledged, and after a fallback a large connection the server had accepted stays open.")
claim("C72", "partial", ["C72_granted", "C72_connected", "C72_refused", "C72_long_status", "C72_any_answer"], "Holds for answers as the code understands them (C72_granted says exactly which are taken for grants).  Additional status of 128 words or more is not skipped, so the identifier is then wrong; an answer to any service and for any serial number counts.")
claim("C73", "partial", ["C73_struct_partial", "C73_exactly", "C73_crash", "C73_no_struct", "C73_map_partial", "C73_strings_refused", "C73_not_split", "C73_arrays_dropped", "C73_untagged"],
      "Proved for structures of any nesting with exported fields, no arrays and distinct tags; the request for single values. False: array fields are left out silently, fields without a tag overwrite one another, a field that is not exported panics, slices of strings make the call fail, and the packet is not split.")
claim("C74", "partial", ["C74_bound_partial", "C74_fitting_read", "C74_ref_added", "C74_any_added", "C74_struct_added_partial", "C74_no_pointer", "C74_composite", "C74_short_slice", "C74_unindexed_slice", "C74_rebound", "C74_hidden_panics", "C74_embedded_misbound", "C74_partly_updated"],
  "proved for distinct names and variables, and for structures without embedded ones whose tagged fields are supported values or slices of at least two; false for short slices (C74_short_slice: the tag is bound to the slice and every later read fails), slices of booleans, slices whose tag has no index (C74_unindexed_slice), a tag bound twice (C74_rebound), embedded structures (C74_embedded_misbound) and failing reads (C74_partly_updated)")
claim("C75", "partial", ["C75_read_empty", "C75_create", "C75_close_request", "C75_closed", "C75_failed_close_forgets", "C75_sync_after_close"],
  "false when the delete request fails (C75_failed_close_forgets) and for SyncTags, which sends after Close (C75_sync_after_close)")
claim("C76", "partial", ["C76_structure_as_number", "C76_crash", "C76_fields_partial", "C76_map_partial", "C76_map_slice_changes", "C76_slice_unreadable", "C76_same_tag_twice", "C76_embedded_misplaced", "C26_readMulti_short_crash"],
      "Holds for structures without embedded ones whose tags differ and whose values have the type of their field, and for maps of single values. False for slices in maps (they become []any and are then asked for as one structure), for fields that are slices of one element or of booleans (never readable), for two fields with the same tag (the first keeps its value) for embedded structures (values go to other fields), and for tags that are structures where a number is expected (C76_structure_as_number: no error, the number is made of the first bytes).")
claim("C77", "partial", ["C77_generic_partial", "C77_generic_short", "C77_multi_ignored", "C77_echo_accepted", "C77_sequence_ignored", "C77_read_ignored", "C77_write_ignored", "C77_attributes_ignored"],
      "Holds for the service of replies to GenericCIPMessage and for the response bit of the embedded replies of a multi-tag read. False for the response bit of GenericCIPMessage, for the sequence count everywhere and for the service of replies to reads, writes and attribute requests, which are not looked at.")
claim("C78", "partial", ["C78_framed", "C78_long_reply", "C78_addressed_partial", "C78_lookup_addressed", "C78_write_misaddressed", "C78_unknown_connection"],
      "C78_framed holds for any stream of bytes. C78_addressed_partial shows the sequence count for every service, C78_lookup_addressed the connection identifier for reads, multiple service requests and attribute reads. "
      "The claim is false: the acknowledgement of a write goes to the connection opened last (C78_write_misaddressed), the answer for an unknown connection has connection and sequence 0 (C78_unknown_connection), and the header of a reply of 64 KiB and more states a truncated length (C78_long_reply).")
claim("C79", "partial", ["C79_read_done", "C79_read_failed", "C79_write_done", "C79_write_failed_silent", "C79_unknown_service", "C79_read_true", "C79_read_missing", "C79_write_true", "C79_write_missing_silent"],
      "Success only for what was done, for reads and writes, for requests of any bytes (C79_read_done, C79_write_done) and in terms of the tag named and its values (C79_read_true, C79_write_true); error statuses for failing reads and unknown services. "
      "The claim is false for the rest: a failing write is not answered (C79_write_failed_silent) and a failing read ends the session (C79_read_failed).")
claim("C80", "partial", ["C80_complete", "C80_listed", "C80_instances", "C80_request_ignored", "C80_client_cannot_read", "C80_client_wrong_size"],
      "The list is complete, ordered and numbered if names have at most 255 bytes. False: start instance and attributes asked for are ignored (C80_request_ignored), "
      "and gologix's client expects array sizes in each entry, so that it fails on the list of one tag and misreads longer ones (C80_client_cannot_read, C80_client_wrong_size).")
claim("C81", "partial", ["C81_described_partial", "C81_bool_hidden", "C81_nameless", "C81_crash", "C81_no_error"],
      "For numbers with a Logix name, arrays of numbers and structures, nested structures and booleans not directly followed by an array. "
      "False for the rest: a boolean after an array is left out (C81_bool_hidden), arrays of booleans and of arrays have no name (C81_nameless), empty arrays of structures and values that are no structures panic (C81_crash, which says that nothing else does).")
claim("C82", "proved", ["C82_request", "C82_read", "C82_change_detected", "C82_change_of_status", "C82_refused", "C82_watch", "C82_watch_ends"], "The keep-alive for its default attributes; that ListAllTags works is assumed for the ticks counted.")
claim("C83", "partial", ["C83_requests", "C83_forces", "C83_forces_refused", "C83_exist_is_enabled", "C83_faults", "C83_faults_short", "C83_flags_partial", "C83_flag_of_other_class", "C83_description_partial", "C83_misfiled", "C83_no_fault"], "Values are read correctly. False: Exist is the same bit as Enabled (C83_exist_is_enabled); the flags of all fault types but power-up are one bit off the class (C83_flag_of_other_class); the description of fault 17:34 is filed under 17:32 with code 31 (C83_misfiled). Texts of descriptions are not modelled.")
claim("C84", "proved", ["C84_is_inside", "C84_serve", "C84_none_panics"], "For errors none of which was put together from no errors at all; such a one crashes (C84_none_panics) and the library makes none (C84_serve).")
claim("C85", "partial", ["C85_no_timeout", "C85_started", "C85_refused", "C85_cancelled", "C85_second_loop", "C85_crash_iff", "C85_never_again", "C85_documented_use_crashes", "C85_twice_crashes"], "Cancelling a running keep-alive works. False: it crashes when there is none or twice (C85_crash_iff, C85_twice_crashes), which with the automatic start off is always so (C85_documented_use_crashes); it never starts again (C85_never_again).")
claim("C86", "partial", ["C86_values_partial", "C86_accessors_safe", "C86_accessors", "C86_no_other_type", "C86_asked_partial", "C86_bool_array", "C86_word_array", "C86_same_name"], "For the values Spec.Means gives. False for arrays of BOOL (C86_bool_array), for the type asked for arrays of WORD (C86_word_array), and for definitions that come to the same name (C86_same_name).")
claim("C87", "partial", ["C87_bits_partial", "C87_bits_shifted", "C87_bits_type_digit", "C87_cdata_partial", "C87_key", "C87_type", "C87_tags_partial", "C87_rungs_partial", "C87_quotes_lost", "C87_program_tags_dropped", "C87_tag_parts_dropped", "C87_alias_dropped", "C87_type_as_member", "C87_no_members_panics", "C87_short_target_panics", "C87_recursive_type", "C87_last_comment_kept"], "Everything said about modules, controller tags and their members by their types, and about rungs, is found, and nothing else. Missing or false: quotes at the ends of a text are lost; tags of programs, comments on parts of a tag and tags without data (aliases) are left out; the description of a type is filed as a member; types without members and bits of one-letter members crash.")
claim("C88", "partial",
      ["C88_struct_partial", "C88_struct_found_partial", "C88_struct_short", "C88_struct_only", "C88_slice_partial", "C88_any_raw",
       "C88_partly_written", "C88_count_wraps", "C88_packed_panics", "C88_packed_never", "C88_other_pointer_panics",
       "C88_other_pointer_never", "C88_anys_panic", "C88_anys_twice", "C88_by_value_silent",
       "C88_padded_array_wrong"],
      "Proved for structures whose arrays of structures need no padding and have no booleans: image to value and value to image, with any padding. False in parts: a read that fails half way has changed the first fields; the count of a slice wraps at 65536; ReadPacked, pointers to arrays or to named numbers, and slices of any panic; a structure passed by value is not read and no error is returned. Arrays of padded structures are read as if they had no padding, without an error. Missing: types with an Unpack method (members of the built-in types: C111).")
claim("C89", "partial", ["C89_atomic_partial", "C89_last_atomic_partial", "C89_array_cut", "C89_nested_by_number", "C89_comment_wrong", "C89_padding_left_out"],
      "True for single elementary members, and when such a member ends last and what counts for the others stays within it. False for arrays (one element counts), for nested structures (the low byte of the template number is taken for a type code), so that even the case its comment supposes right is not; padding at the end is left out.")
claim("C90", "partial", ["C90_served", "C90_no_tcp", "C90_tcp_left_open", "C90_never_returns", "C90_spins"],
      "Connections and datagrams: true. False: with both listeners open Serve never returns, errors of Accept and ReadFrom are logged and tried again at once, even when the listener is closed (C90_never_returns, C90_spins); when the UDP port cannot be opened the TCP listener is left open (C90_tcp_left_open).")
claim("C91", "partial", ["C91_removed", "C91_only", "C91_unknown", "C91_pending_cannot_go"],
      "True except for tags the controller has not been told of: it is asked to remove them all the same, and if it refuses they stay (C91_pending_cannot_go). The positions of the tags behind the removed one are not changed, see C43.")
claim("C92", "partial", ["C92_lists", "C92_crash_iff", "C92_tags_partial", "C92_members_partial", "C92_table_partial", "C92_typed", "C92_slice_partial", "C92_bools_partial", "C92_struct", "C92_structs", "C92_open_partial"],
      "False: a reply with fewer than two items crashes most of these requests (exactly those, C92_crash_iff), a template whose text begins with a semicolon crashes ListMembers. Proved that nothing else does; slices of strings and empty slices are C26_string_array_crash and C56_empty_slice_panics.")
claim("C93", "partial", ["C93_all", "C93_all_unconnected", "C93_single_partial", "C93_client_partial", "C93_name", "C93_absent_silent", "C93_unconnected_typed", "C93_absent_unconnected"],
      "All attributes at once: proved.  One attribute on a connection: proved for the numbers, with the service code of a read in the reply; false for the name (C93_name) and for what is absent (C93_absent_silent: no answer, the session ends).  One attribute outside a connection is false (C93_unconnected_typed: a type code in front), what is absent is proved there.")
claim("C94", "partial", ["C94_read_partial", "C94_read_failed_silent", "C94_write_partial", "C94_write_failed_silent", "C94_write_odd_silent", "C94_write_string_silent", "C94_number_read", "C94_number_absent", "C94_number_write", "C94_number_refused", "C94_number_long", "C94_unknown", "C94_give_back_refused", "C94_give_back_corrupts"],
      "Proved: reads that succeed, writes of an even number of bytes, reads and writes by numbers up to 255 with their error statuses.  False, and proved false: a read or write that fails gets no answer and ends the session; an odd number of bytes and strings cannot be written; tags from number 256 on cannot be addressed; a number that was read cannot be given back, and a string of one character given back becomes 82 zeros.")
claim("C95", "partial", ["C95_start", "C95_only", "C95_senders_partial", "C95_one_each", "C95_running", "C95_large_no_data", "C95_no_endpoint", "C95_zero_interval"],
      "Proved for requests in the standard form with an interval and a path that leads somewhere, in any history.  False, and proved false: in the large form the connection is opened and no data is ever sent; for a path that leads nowhere it is acknowledged and stays in the table although the session ends; an interval of zero ends the whole server.")
claim("C96", "partial", ["C96_next", "C96_session", "C96_distinct_partial", "C96_pair_partial", "C96_taken_accepted"],
      "Proved for identifiers that requests leave to the server, if the random source does not repeat itself.  False, and proved false: an identifier that a request asks for is taken even if another open connection has it, and messages sent under it go to the older one.")
claim("C97", "partial", ["C97_add_partial", "C97_ref_partial", "C97_adds_partial", "C97_struct_partial", "C97_all_or_nothing", "C97_refused", "C97_not_created", "C97_crash", "C97_large_structure", "C97_times"], "The sizes are those of the elementary types of the manual, the size the controller told for strings and structures below 65536 bytes, else 88; structures as in C74. False for names that crash (C55), for structures of 65536 bytes and more, whose size is cut, and for times of day and dates with time. A refused group leaves its names behind: see C45_refused_group_blocks_reads.")
claim("C98", "partial", ["C98_newest_partial", "C98_last", "C98_inputs", "C98_untouched", "C98_older_replaces", "C98_idle_taken"],
  "the outputs are those of the message that came last, which is the newest one when the messages come in order; false otherwise: the numbers are not looked at, an older message replaces a newer one (C98_older_replaces)")
claim("C99", "partial", ["C99_received_partial", "C99_unreadable", "C99_input", "C99_first_blocks"],
  "a channel gives exactly the messages at which somebody waited at it and at all channels opened before it; false as stated: while nobody waits at the first channel no channel gets anything (C99_first_blocks)")
claim("C100", "proved", ["C100_delivered", "C100_dropped", "C100_safe"], "For the structures of the pack model (C16).")
claim("C101", "proved", ["C101_element", "C101_array", "C101_always", "C101_replaced"],
      "Floating point and text conversions are left open in the model except for the type of their result. C101_replaced: a single value written under the array's own name replaces the array as a whole.")
claim("C102", "partial", ["C102_session", "C102_no_session", "C102_refusal_ignored"], "Holds but for a refused session: the status of the answer is not looked at, so Connect goes on.")
claim("C103", "partial", ["C103_dials", "C103_asks", "C103_keeps", "C103_new", "C103_logger", "C103_vendor_left_out", "C103_long_interval", "C103_no_timeout", "C103_no_logger"],
      "Proved for every client with a logger, and packet intervals below 2^32 microseconds. False, and proved false: the default vendor number goes to a field no message contains, so a client without one asks as vendor 0; longer packet intervals are cut; a timeout of zero, documented as none, becomes ten seconds; a client without a logger panics in Connect.")
claim("C104", "partial", ["C104_connects_partial", "C104_session_partial", "C104_list_partial", "C104_missing_ends", "C104_several_absent_ends", "C104_list_absent_ends", "C104_map_string_ends", "C104_map_array", "C104_no_attributes", "C104_bools_end", "C104_strings_crash", "C104_structure_cut", "C104_structure_unread"],
      "Connecting takes two exchanges and joins the client to the server's tags; any sequence of reads and writes of "
      "tags, elements, arrays and several of them in one packet (ReadList, WriteMap) then behaves like a memory, and ReadList returns what is there under each of "
      "any number of tags. False for tags that do not exist (the client reports a short reply instead of the "
      "status, and the connection ends), for strings and arrays in WriteMap (the connection ends; the array is replaced by its first "
      "element), for lists of attributes (the keep-alive ends at once), for slices of booleans that are written (not answered, the "
      "connection ends), for two or more strings that are read at once (the client crashes) and for structures (sent without the handle, "
      "so that the first two bytes are lost). Booleans are read as the bits of words.")
claim("C105", "partial", ["C105_carried_partial", "C105_only", "C105_array_as_structure", "C105_named_as_structure", "C105_struct_pointer", "C105_struct_slice", "C105_bool_slice", "C105_refused", "C105_crash", "C105_structure_back_partial"],
      "The values sent as they are, those refused and those that crash are determined exactly, except that of structures only those with a right description and layout are shown to be sent right.  False for arrays, values of named types, pointers to and slices of structures and slices of booleans, which are sent as a structure without a handle, and for nil and nil pointers, which crash.")
claim("C106", "partial", ["C106_joins_partial", "C106_clients_partial", "C106_same_instant"],
      "A client that connects with an identifier no connection has joins the others, and any interleaving of calls of any "
      "number of clients behaves like one memory.  False for clients that connect in the same millisecond: they draw the same "
      "identifier, which the server takes twice, and the second works with the tags of the first's route.  Requests that "
      "are handled at the same time are the subject of C107.")
claim("C107", "partial", ["C107_elements_partial", "C107_whole_partial", "C107_single", "C107_answered", "C107_torn"],
      "False: TagRead hands out a slice of the stored array and the reply is encoded after the lock is released, so a client can "
      "be sent an array the tag never held (C107_torn).  Proved: single values and elements are those of one time, arrays too if "
      "no element is written by itself meanwhile, and in any case every element is one the tag held there while the request "
      "was handled.")
claim("C108", "partial", ["C108_never_lists", "C108_nothing_listed"],
      "The code violates the property: a server answers the request for the programs, as every request of that service, with its tags, and the client fails on them; so a server that has a tag is never listed (tag names that begin with a byte other than 0, lists that fit a frame). A server without tags is listed as such.")
claim("C109", "partial", ["C109_arrives_partial", "C109_leaves_partial", "C109_lives_partial", "C109_gone", "C109_vanishes", "C109_closes_another", "C109_vanished"],
      "proved for any sequence of arrivals, calls, departures and disappearances in which every arriving client draws a serial number and an identifier that no connection has; false otherwise: serial numbers repeat every 65536 ms and the server closes the first connection with the number, which may be another client's, and the connections of clients that vanish stay in the table for ever, one for each (the others are not disturbed)")
claim("C110", "partial", ["C110_identity", "C110_attribute_partial", "C110_all", "C110_unsupported", "C110_clients_partial", "C110_services", "C110_name", "C110_absent_ends", "C110_thrown_out"],
      "identity, all attributes, single attributes but the name, and services the server does not have: proved; false for the list of services (unreadable, C67), the name as a single attribute (STRING instead of SHORT_STRING), and a single attribute or object that does not exist (no answer, the session ends)")
claim("C111", "partial", ["C111_layout_partial", "C111_aligned_partial", "C111_read_partial", "C111_roundtrip_partial", "C111_client_read_partial", "C111_client_slice_partial", "C111_written_partial", "C111_written_back_partial", "C111_pointer_wrong", "C111_written_slice_wrong", "C111_written_slice_size", "C111_array_wrong", "C111_array_no_image", "C111_array_short", "C111_array_own"],
      "Proved for members and nested structures at any depth, for reading them, or a slice of them, with a client, and for writing one of them; FS, LS, OV and ER of a TIMER are not packed (C19). False for arrays of built-in types: they are written and read field by field in Go's order without a control word, so that nothing written is the controller's image and the controller's image is too short. False for writing pointers to them and slices of them, which go without a handle and field by field. Missing: members of other types with Pack, Unpack or Bytes methods.")
claim("C112", "partial", ["C112_status_tells", "C112_service_tells", "C112_type_tells", "C112_status_code", "C112_type_code_partial", "C112_services_unnamed", "C112_lword_wrong", "C112_error_tells_partial", "C112_error_same", "C112_generic_expected", "C112_generic_expected_wrong", "C112_generic_status_partial", "C112_generic_cut", "C112_service_shown_wrong", "C112_service_failed_tells", "C112_attributes_status", "C112_reads_tell_partial", "C112_reads_cut"],
      "Statuses, services and types are told apart. False: LWORD shows the code of ULINT, codes below 16 of types show a space for a digit, CIPError with extended codes of fewer than four digits can read alike, CIPStatusError shows 0x4F4B as expected, statuses above 255 lose their upper bits and can read OK.")
claim("C113", "partial", ["C113_plain_safe", "C113_no_deadlock", "C113_listing_clashes", "C113_listings_clash", "C113_members_clash", "C113_types_clash", "C113_listing_members_clash"],
      "Proved for goroutines that read and write; nobody waits for ever, with listings too. False when one lists: ListAllTags and ListMembers use the tables without a lock, so a listing clashes with any lookup of a path on firmware above 20, with sizes of structures, with template queries and with another listing. The Disconnect within an exchange that fails is included. Missing: the other fields of the client.")
claim("C114", "partial", ["C114_fields_partial", "C114_map_partial", "C114_roundtrip_partial", "C114_type_crash", "C114_one_element_crash", "C114_missing_ends", "C114_map_missing_ends", "C114_fields_missing_ends", "C114_name_crash", "C114_hidden_crash"],
      "Proved for tags of the types asked for. False: a field of another type than the server's tag and a slice of one element crash the client (counterexamples), a name the server does not have leaves all unread and ends the connection (for all maps and structures: C114_map_missing_ends, C114_fields_missing_ends); a key with an unbalanced bracket and a tagged field that is not exported crash the client, whatever else is read (C114_name_crash, C114_hidden_crash).")
claim("C115", "partial", ["C115_stored_partial", "C115_written_partial", "C115_roundtrip_partial", "C115_slice_cut", "C115_slice_first", "C115_string_ends", "C115_string_half", "C115_type_changes", "C115_hidden_crash", "C115_no_structure", "C115_name_crash"],
      "Proved for structures without arrays, slices and strings. False: a slice replaces an array by its first element, or writes only the first element, and success is reported; a string ends the connection, after the values before it are written; a value of another type changes the type of the tag (counterexamples). A name with an unbalanced bracket and a field that is not exported crash the client before anything is sent, whatever else is written (C115_name_crash, C115_hidden_crash).")
claim("C116", "partial", ["C116_ends_at_once", "C116_attributes_refused", "C116_questions_refused", "C116_answered"],
      "Proved: the session and the server are not disturbed, the calls return errors, and a tick whose request is answered does what C82 says. False: the server refuses every list of attributes, so the keep-alive returns after its first request and no tick sends anything (C116_ends_at_once).")
claim("C117", "partial", ["C117_values_partial", "C117_accessors", "C117_short_ends", "C117_missing_ends", "C117_other_type"],
      "Proved for tags of the types defined, arrays not of BOOL or WORD (C86). False: an array shorter than defined or a tag that is not there leaves all unread and ends the connection (for all groups: C117_missing_ends), a tag of another type is not reported (counterexamples).")
claim("C118", "partial", ["C118_connects_partial", "C118_not_allowed", "C118_map_not_checked", "C118_missing_costs_next"],
      "Proved for routes of one hop and a free connection identifier, as C104. False for WriteMap, which does not look whether the client is connected (it crashes if it never was), and for the call after a read of a missing tag, which is lost (counterexamples).")
claim("C119", "partial", ["C119_read_partial", "C119_several_partial", "C119_several_exact", "C119_sint_refused", "C119_beyond", "C119_write_replaces", "C119_element_write_ends"],
      "Proved for reading bits inside the number and below 32, one or several of them with other values in a list, for every integer type but SINT. False for SINT (an error; in a list nil without an error), for bits outside the number (false without an error; lists exactly in C119_several_exact) and for writing a bit (the number is replaced by the boolean; of an element it is refused and the connection is lost) (counterexamples).")
claim("C120", "partial", ["C120_converts", "C120_array_converts", "C120_refused_partial", "C120_array_refused_partial"],
      "Proved for arrays of anything but strings, and for values the array takes. A refused write is an error and changes nothing, but the server does not answer it: the connection is lost and every later call fails (part of the same theorems).")
claim("C121", "partial", ["C121_all_partial", "C121_none_partial", "C121_half", "C121_large_crash"],
      "Proved for values that are all taken and have at most 32 KiB, and for packets whose first value is refused. When a later value is refused (an element that does not take it or is not there), the call is an error although those before it are written and those after it are not, and the connection is lost (counterexample, for all such packets). Values of which one begins beyond the first 32 KiB of the packet crash the server (C121_large_crash).")
