{
 "claims": [
  {
   "property": "C01",
   "status": "proved",
   "theorems": [
    "Gologix.C01_frame_layout",
    "Gologix.C01_frame_roundtrip",
    "Gologix.C01_frame_any_size",
    "Gologix.C01_send_loop"
   ],
   "note": "Layout, round-trip with arbitrary following bytes, exact behaviour beyond the 16-bit length field, partial socket writes."
  },
  {
   "property": "C02",
   "status": "proved",
   "theorems": [
    "Gologix.C02_frames_in_order"
   ],
   "note": ""
  },
  {
   "property": "C03",
   "status": "proved",
   "theorems": [
    "Gologix.C03_items_layout",
    "Gologix.C03_items_roundtrip"
   ],
   "note": ""
  },
  {
   "property": "C04",
   "status": "proved",
   "theorems": [
    "Gologix.C04_items_hostile",
    "Gologix.C04_getters",
    "Gologix.C04_item_read"
   ],
   "note": ""
  },
  {
   "property": "C05",
   "status": "proved",
   "theorems": [
    "Gologix.C05_class",
    "Gologix.C05_instance",
    "Gologix.C05_attribute",
    "Gologix.C05_decoders_sound",
    "Gologix.C05_getAttrSingle_path"
   ],
   "note": ""
  },
  {
   "property": "C06",
   "status": "partial",
   "theorems": [
    "Gologix.C06_path_even",
    "Gologix.C06_word_count",
    "Gologix.C06_getAttrSingle",
    "Gologix.C06_declared_length",
    "Gologix.C06_declared_length_partial",
    "Gologix.C06_element_length_wrong"
   ],
   "note": "Holds for the word counts computed from bytes. Missing: the declared Len() of an element segment disagrees with its bytes for 65535 (C06_element_length_wrong)."
  },
  {
   "property": "C07",
   "status": "partial",
   "theorems": [
    "Gologix.C07_element_partial",
    "Gologix.C07_element_32bit_wrong",
    "Gologix.C07_element_injective"
   ],
   "note": "Injective for all elements, decodable below 65536; the 32-bit form uses the 16-bit segment code 0x29, so a decoder does not recover it (C07_element_32bit_wrong)."
  },
  {
   "property": "C08",
   "status": "partial",
   "theorems": [
    "Gologix.C08_tag_path_roundtrip_partial",
    "Gologix.C08_count_eaten",
    "Gologix.C08_index32_lost",
    "Gologix.getTagFromPath_fuel"
   ],
   "note": "Round-trip whenever the byte after the path is not 0x28, 0x29 or 0x91. Otherwise false: the server ignores the announced path length, so e.g. an element count of 40 is taken for an index (C08_count_eaten, for every path). 32-bit indices are not understood (C08_index32_lost)."
  },
  {
   "property": "C09",
   "status": "proved",
   "theorems": [
    "Gologix.C09_request_path_denotes",
    "Gologix.C09_request_paths_differ",
    "Gologix.C09_known_tags_differ"
   ],
   "note": ""
  },
  {
   "property": "C10",
   "status": "proved",
   "theorems": [
    "Gologix.C10_case_and_history",
    "Gologix.C10_same_later"
   ],
   "note": "Letter case for ASCII letters."
  },
  {
   "property": "C11",
   "status": "proved",
   "theorems": [
    "Gologix.C11_symbolic_path_wellformed",
    "Gologix.C11_known_path_wellformed",
    "Gologix.C11_announced_length",
    "Gologix.C11_long_name_wrong",
    "Gologix.C11_long_name_cut"
   ],
   "note": "C11_long_name_wrong shows why the 255 byte limit of the claim is needed; C11_long_name_cut that every longer name is sent as another, shorter one."
  },
  {
   "property": "C55",
   "status": "partial",
   "theorems": [
    "Gologix.C55_no_panic_partial",
    "Gologix.C55_unbalanced_bracket_panics",
    "Gologix.C55_crash_exact",
    "Gologix.C55_never_refused",
    "Gologix.C55_crash_always"
   ],
   "note": "False in general: a name part that ends in ] and has no [ panics, and exactly such names do (C55_crash_exact), each time they are used; no name is ever refused with an error (C55_never_refused)."
  },
  {
   "property": "C12",
   "status": "partial",
   "theorems": [
    "Gologix.C12_bit_of_value_partial",
    "Gologix.C12_read_bit_partial",
    "Gologix.C12_bit_path_partial",
    "Gologix.C12_sint_refused",
    "Gologix.C12_out_of_range_silent",
    "Gologix.C12_bit_number_limit",
    "Gologix.C12_high_bit_member"
   ],
   "note": "Holds for every integer type but SINT and bit numbers inside the width (31 at most in a tag name). SINT bits are always refused, a bit number outside the width silently reads false, bits 32..63 of a LINT cannot be named (C12_high_bit_member: the number is asked for as a member, for every tag)."
  },
  {
   "property": "C13",
   "status": "proved",
   "theorems": [
    "Gologix.C13_value_roundtrip",
    "Gologix.C13_layout",
    "Gologix.C13_type_codes",
    "Gologix.C13_consumes",
    "Gologix.C13_ulint_unreadable"
   ],
   "note": ""
  },
  {
   "property": "C14",
   "status": "partial",
   "theorems": [
    "Gologix.C14_bools_partial",
    "Gologix.C14_not_multiple_rejected",
    "Gologix.C14_empty_panics"
   ],
   "note": "One word or more, up to the 16-bit element count, fragmented or not. An empty slice panics."
  },
  {
   "property": "C15",
   "status": "partial",
   "theorems": [
    "Gologix.C15_footprint",
    "Gologix.C15_string_array_element",
    "Gologix.C15_string_partial",
    "Gologix.C15_long_string_overclaims",
    "Gologix.C15_written"
   ],
   "note": "Full for elements of string slices. A single string longer than 84 bytes is written with a length field beyond its data (C15_long_string_overclaims, for every such string)."
  },
  {
   "property": "C20",
   "status": "partial",
   "theorems": [
    "Gologix.C20_requests",
    "Gologix.C20_reassembly_partial",
    "Gologix.C20_offsets_partial",
    "Gologix.C20_struct_refused"
   ],
   "note": "Full for non-structured types. A fragmented structure is refused with an error."
  },
  {
   "property": "C56",
   "status": "partial",
   "theorems": [
    "Gologix.C56_typed",
    "Gologix.C56_read_scalar",
    "Gologix.C56_read_array_partial",
    "Gologix.C56_read_string",
    "Gologix.C56_one_element_refused",
    "Gologix.C56_empty_slice_panics"
   ],
   "note": "Scalars, strings, slices of two or more. A slice of length one is never filled, an empty slice panics."
  },
  {
   "property": "C21",
   "status": "partial",
   "theorems": [
    "Gologix.C21_readList_partial",
    "Gologix.C21_readBatches_partial",
    "Gologix.C21_untyped_struct_overruns",
    "Gologix.C21_sint_bit_nil"
   ],
   "note": "For every list of tags and every truthful sequence of replies, for scalars, arrays, bits, strings, string arrays and sized structures. False for structures read without a type (C21_untyped_struct_overruns) and bits of SINT (C21_sint_bit_nil)."
  },
  {
   "property": "C22",
   "status": "partial",
   "theorems": [
    "Gologix.C22_readList_partial",
    "Gologix.C22_readBatches_partial",
    "Gologix.C22_oversized_tag_loops",
    "Gologix.C22_empty_reply"
   ],
   "note": "The requests are consecutive slices of the tag list that concatenate to it. A tag whose request alone exceeds the connection size makes readList split into an empty and the same list for ever (C22_oversized_tag_loops)."
  },
  {
   "property": "C23",
   "status": "partial",
   "theorems": [
    "Gologix.C23_request_within_one",
    "Gologix.C23_request_fits_partial",
    "Gologix.C23_reply_data_partial",
    "Gologix.C23_readMulti_partial",
    "Gologix.C23_odd_size_exceeded",
    "Gologix.C23_readMulti_exceeds",
    "Gologix.C23_reply_exceeds",
    "Gologix.C23_reply_bound_partial",
    "Gologix.C23_string_replies"
   ],
   "note": "ReadList/ReadMap requests and reply data stay within the size when it is even (one byte over if it is odd). False for ReadMulti, which only counts the embedded requests, and for replies, whose headers are not counted (8 bytes and 8 for each number, C23_reply_bound_partial); of strings all but one byte each is not counted (C23_string_replies: as many as fit in the request are asked for at once)."
  },
  {
   "property": "C24",
   "status": "proved",
   "theorems": [
    "Gologix.C24_packet",
    "Gologix.C24_read_requests"
   ],
   "note": "C24_packet holds for any embedded requests, so also for WriteMap (C54)."
  },
  {
   "property": "C25",
   "status": "partial",
   "theorems": [
    "Gologix.C25_read",
    "Gologix.C25_readT",
    "Gologix.C25_fragment",
    "Gologix.C25_multi",
    "Gologix.C25_multi_embedded",
    "Gologix.C25_write",
    "Gologix.C25_getAttrList",
    "Gologix.C25_generic",
    "Gologix.C25_forward_open",
    "Gologix.C25_getAttrSingle_ignores",
    "Gologix.C54_rejection_ignored"
   ],
   "note": "Holds for single, fragmented and multi reads, writes, attribute lists, generic messages and connecting. False for GetAttrSingle and WriteMap, which never look at the status."
  },
  {
   "property": "C26",
   "status": "partial",
   "theorems": [
    "Gologix.C26_crash_iff",
    "Gologix.C26_read_partial",
    "Gologix.C26_readT",
    "Gologix.C26_string_array_crash",
    "Gologix.C26_write_partial",
    "Gologix.C26_getAttrSingle_partial",
    "Gologix.C26_others_partial",
    "Gologix.C26_no_items_crash",
    "Gologix.C26_writeMap",
    "Gologix.C26_multi_entry_partial",
    "Gologix.C26_multi_offset_crash",
    "Gologix.C26_readMulti_type_crash",
    "Gologix.C26_readMulti_one_element_crash",
    "Gologix.C26_readMulti_short_crash"
   ],
   "note": "Single reads of anything but string arrays never crash. Crashes proved: string arrays with a length above 82, replies without items to writes and attribute requests, offsets beyond the packet in multi reads, and type mismatches or one-element slices in ReadMulti."
  },
  {
   "property": "C54",
   "status": "partial",
   "theorems": [
    "Gologix.C54_writes_partial",
    "Gologix.C54_total",
    "Gologix.C54_slice_announced_as_one",
    "Gologix.C54_rejection_ignored"
   ],
   "note": "One write per entry for maps of single values. Slices are announced as one element and the reply is ignored."
  },
  {
   "property": "C57",
   "status": "partial",
   "theorems": [
    "Gologix.C57_no_extra_values_partial",
    "Gologix.C57_missing_values_accepted",
    "Gologix.C57_values_shift"
   ],
   "note": "Never more values than tags. Fewer are accepted, and then later batches' values go to the wrong tags."
  },
  {
   "property": "C58",
   "status": "partial",
   "theorems": [
    "Gologix.C58_write_value",
    "Gologix.C58_write_slice_partial",
    "Gologix.C58_write_struct",
    "Gologix.C58_bool_slice_type",
    "Gologix.C58_count_wraps"
   ],
   "note": "False for []bool (sent as a structure) and for 65536 elements or more (count wraps)."
  },
  {
   "property": "C59",
   "status": "partial",
   "theorems": [
    "Gologix.C59_bit_write_ignores_bit"
   ],
   "note": "False: the bit number is dropped, for every tag, bit and value."
  },
  {
   "property": "C16",
   "status": "proved",
   "theorems": [
    "Gologix.C16_roundtrip",
    "Gologix.C16_slice"
   ],
   "note": "Every shape of numbers, booleans, arrays and nested structures, also as elements of a slice."
  },
  {
   "property": "C17",
   "status": "partial",
   "theorems": [
    "Gologix.C17_layout_partial",
    "Gologix.C17_aligned_partial",
    "Gologix.C17_scalar_bits_partial",
    "Gologix.C17_elements_partial",
    "Gologix.C17_array_of_structs_unaligned",
    "Gologix.C17_array_of_flags"
   ],
   "note": "Every shape without arrays of arrays of booleans, where the structures in arrays need no padding and have no booleans. False for arrays of other structures, which are written without padding and with a byte for every boolean."
  },
  {
   "property": "C18",
   "status": "proved",
   "theorems": [
    "Gologix.C18_pack_run",
    "Gologix.C18_bool_array_is_run",
    "Gologix.C18_fresh_byte",
    "Gologix.C18_unpack_run",
    "Gologix.C18_unpack_short",
    "Gologix.C18_nested_array_not_packed"
   ],
   "note": "Boolean fields and arrays of booleans. Arrays of arrays of booleans are not packed (C18_nested_array_not_packed)."
  },
  {
   "property": "C19",
   "status": "partial",
   "theorems": [
    "Gologix.C19_other_bits",
    "Gologix.C19_counter_roundtrip",
    "Gologix.C19_control_roundtrip",
    "Gologix.C19_timer_roundtrip_partial",
    "Gologix.C19_timer_drops_bits",
    "Gologix.C19_bit_positions",
    "Gologix.C19_words",
    "Gologix.C19_short_input"
   ],
   "note": "Full for COUNTER and CONTROL. TIMER loses FS, LS, OV and ER."
  },
  {
   "property": "C27",
   "status": "partial",
   "theorems": [
    "Gologix.Conc.C27_success_means",
    "Gologix.Conc.C27_disconnect_means",
    "Gologix.Conc.C27_quiescent",
    "Gologix.Conc.C27_log",
    "Gologix.Conc.C27_outcome",
    "Gologix.Conc.C27_refused",
    "Gologix.Conc.C27_disconnects_end_disconnected",
    "Gologix.Conc.C27_disconnect_refused_while_connecting"
   ],
   "note": "Every schedule of any number of goroutines. Only missing: a Disconnect called while another goroutine is connecting is refused, and then the client ends connected (C27_disconnect_refused_while_connecting)."
  },
  {
   "property": "C28",
   "status": "proved",
   "theorems": [
    "Gologix.Conc.C28_one_dialler",
    "Gologix.Conc.C28_dial_only_from_disconnected"
   ],
   "note": ""
  },
  {
   "property": "C29",
   "status": "proved",
   "theorems": [
    "Gologix.Conc.C29_exchanges",
    "Gologix.Conc.C29_streams",
    "Gologix.Conc.C29_reply_follows_request"
   ],
   "note": "See C61 for what this does not give."
  },
  {
   "property": "C30",
   "status": "proved",
   "theorems": [
    "Gologix.C30_distinct",
    "Gologix.C30_repeats",
    "Gologix.C30_counts_are_draws",
    "Gologix.C30_two_generators"
   ],
   "note": "For the generator `sequencer`. GetAttrList draws from another one (C30_two_generators)."
  },
  {
   "property": "C60",
   "status": "proved",
   "theorems": [
    "Gologix.Conc.C60_success_has_reply",
    "Gologix.Conc.C60_replies_in_order"
   ],
   "note": ""
  },
  {
   "property": "C61",
   "status": "partial",
   "theorems": [
    "Gologix.Conc.C61_late_reply_to_other_goroutine",
    "Gologix.Conc.C61_late_reply_alone",
    "Gologix.Conc.C61_connections_apart_partial"
   ],
   "note": "False: between the timeout and the Disconnect that follows it another goroutine can use the connection, and the Disconnect itself, with no other goroutine, is handed the late reply to the failed request. Proved for all other connections of the client, such as the one of the next Connect."
  },
  {
   "property": "C62",
   "status": "partial",
   "theorems": [
    "Gologix.Conc.C62_no_crash_partial",
    "Gologix.Conc.C62_nil_connection_crash",
    "Gologix.Conc.C62_double_close_crash"
   ],
   "note": "Holds if no dial fails and the keep-alive is not used; both exceptions are proved real."
  },
  {
   "property": "C63",
   "status": "partial",
   "theorems": [
    "Gologix.Conc.C63_failed_connect_leaks",
    "Gologix.Conc.C63_left_open",
    "Gologix.Conc.C63_at_most_one_in_use",
    "Gologix.Conc.C63_connected_open"
   ],
   "note": "False for a Connect that fails after dialling.  Exactly the connections of such Connects are left open, and every other one is closed when the client is disconnected."
  },
  {
   "property": "C31",
   "status": "proved",
   "theorems": [
    "Gologix.Server.C31_lookup",
    "Gologix.Server.C31_missing",
    "Gologix.Server.C31_flag",
    "Gologix.Server.C31_close_local"
   ],
   "note": ""
  },
  {
   "property": "C32",
   "status": "partial",
   "theorems": [
    "Gologix.Server.C32_scalar",
    "Gologix.Server.C32_array",
    "Gologix.Server.C32_wire_array",
    "Gologix.Server.C32_missing",
    "Gologix.Server.C32_narrowed"
   ],
   "note": "Missing: an array from the wire over an array of another element type is converted, which can change the values (C32_narrowed)."
  },
  {
   "property": "C33",
   "status": "partial",
   "theorems": [
    "Gologix.Server.C33_write",
    "Gologix.Server.C33_write_same_type",
    "Gologix.Server.C33_write_converts",
    "Gologix.Server.C33_out_of_range",
    "Gologix.Server.C33_failed_write_unchanged",
    "Gologix.Server.C33_read_partial",
    "Gologix.Server.C33_negative_count_panics",
    "Gologix.Server.C33_negative_count_panics_whole"
   ],
   "note": "Missing: negative counts panic instead of being an error."
  },
  {
   "property": "C34",
   "status": "proved",
   "theorems": [
    "Gologix.Server.C34_route",
    "Gologix.Server.C34_other_paths"
   ],
   "note": ""
  },
  {
   "property": "C64",
   "status": "partial",
   "theorems": [
    "Gologix.Server.C64_requests_partial",
    "Gologix.Server.C64_two_tags_share",
    "Gologix.Server.C64_result_changes_later"
   ],
   "note": "Holds for reads completed between requests; false for arrays shared by the application or still being serialised."
  },
  {
   "property": "C37",
   "status": "partial",
   "theorems": [
    "Gologix.Server.C37_path_panics_iff",
    "Gologix.Server.C37_only_hostile_partial",
    "Gologix.Server.C37_stream_partial",
    "Gologix.Server.C37_crash_path",
    "Gologix.Server.C37_crash_open",
    "Gologix.Server.C37_crash_zero_interval",
    "Gologix.Server.C37_crash_empty_write",
    "Gologix.Server.C37_crash_read_count",
    "Gologix.Server.C37_crash_multi_offset",
    "Gologix.Server.C37_crash_unconnected_send",
    "Gologix.Server.C37_crash_send_any",
    "Gologix.Server.C37_crash_read_path",
    "Gologix.Server.C37_crash_offset_any",
    "Gologix.Server.C37_crash_empty_any",
    "Gologix.Server.C37_crash_count_any",
    "Gologix.Server.C37_crash_interval_any"
   ],
   "note": "False as stated; the requests that can crash the server are characterised, all other bytes cannot. Of the forms, those without a name, without elements, with 0x8000 elements or more, with a negative first offset and with an interval of zero are shown to crash every server, whatever its state and tags (C37_crash_path, C37_crash_open, C37_crash_*_any)."
  },
  {
   "property": "C38",
   "status": "partial",
   "theorems": [
    "Gologix.Server.C38_connected_partial",
    "Gologix.Server.C38_unconnected_partial",
    "Gologix.Server.C38_unconnected_send_partial",
    "Gologix.Server.C38_any_bytes",
    "Gologix.Server.C38_register",
    "Gologix.Server.C38_get_attr_single_code",
    "Gologix.Server.C38_rr_connected_item",
    "Gologix.Server.C38_session_not_checked",
    "Gologix.Server.C38_list_services_command"
   ],
   "note": "Holds for the other services, connected and unconnected. False: Get_Attribute_Single on a connection is answered with another service code, connected data in SendRRData with a service code made from the sequence number, a foreign session with the registered one, ListServices with another command."
  },
  {
   "property": "C39",
   "status": "partial",
   "theorems": [
    "Gologix.Server.C39_open",
    "Gologix.Server.C39_close",
    "Gologix.Server.C39_step",
    "Gologix.Server.C39_table_partial",
    "Gologix.Server.C39_close_not_acknowledged",
    "Gologix.Server.C39_serials_collide"
   ],
   "note": "Opens enter one connection and are answered with its identifiers; the table after any requests holds exactly the opened and not closed connections if serial numbers in use are distinct. False: a close is never acknowledged, and with equal serial numbers a close leaves a connection open."
  },
  {
   "property": "C65",
   "status": "partial",
   "theorems": [
    "Gologix.Server.C65_close_by_anyone",
    "Gologix.Server.C65_stranger_closes",
    "Gologix.Server.C65_serial_partial",
    "Gologix.Server.C65_named_partial"
   ],
   "note": "False: vendor and originator of a close request are ignored; any peer closes any connection. Proved for the serial number: whatever bytes any peers send, a connection is removed only by a close request that names its serial number, and each removes at most one."
  },
  {
   "property": "C40",
   "status": "partial",
   "theorems": [
    "Gologix.C40_route",
    "Gologix.C40_numbers",
    "Gologix.C40_exactly",
    "Gologix.C40_dot_first_panics",
    "Gologix.C40_dot_accepted"
   ],
   "note": "Proved for routes of numbers, and for numbers followed by addresses. False: a text with a dot is accepted after a number without being a number, and panics when it comes first."
  },
  {
   "property": "C41",
   "status": "partial",
   "theorems": [
    "Gologix.C41_sticky",
    "Gologix.C41_concat",
    "Gologix.C41_segment_partial",
    "Gologix.C41_address_panics",
    "Gologix.C41_index_dropped"
   ],
   "note": "Sticky error and concatenation hold for every call sequence. Missing: element numbers from 65536 and names with an index are mangled; an address as the first route text panics."
  },
  {
   "property": "C42",
   "status": "proved",
   "theorems": [
    "Gologix.C42_crc",
    "Gologix.C42_crc_unique",
    "Gologix.C42_burst",
    "Gologix.C42_identifier",
    "Gologix.C42_builtin_fixed"
   ],
   "note": "The crc16 library is external and modelled from its documented parameters. The built-in types have fixed identifiers."
  },
  {
   "property": "C47",
   "status": "proved",
   "theorems": [
    "Gologix.C47_tag",
    "Gologix.C47_exactly_one",
    "Gologix.C47_atomic_no_template",
    "Gologix.C47_member",
    "Gologix.C47_predefined"
   ],
   "note": ""
  },
  {
   "property": "C48",
   "status": "proved",
   "theorems": [
    "Gologix.C48_parse",
    "Gologix.C48_publish",
    "Gologix.C48_roundtrip"
   ],
   "note": ""
  },
  {
   "property": "C49",
   "status": "proved",
   "theorems": [
    "Gologix.C49_record",
    "Gologix.C49_short",
    "Gologix.C49_all"
   ],
   "note": ""
  },
  {
   "property": "C50",
   "status": "proved",
   "theorems": [
    "Gologix.C50_involution",
    "Gologix.C50_recognised",
    "Gologix.C50_injective"
   ],
   "note": ""
  },
  {
   "property": "C53",
   "status": "partial",
   "theorems": [
    "Gologix.C53_complete",
    "Gologix.C53_blanks",
    "Gologix.C53_cut_name",
    "Gologix.C53_cut_header_accepted",
    "Gologix.C53_partial_status"
   ],
   "note": "Complete lists are parsed completely; a list cut in a name or marked incomplete is an error. False: a list cut inside the header of an entry is accepted as complete."
  },
  {
   "property": "C67",
   "status": "partial",
   "theorems": [
    "Gologix.C67_unreadable",
    "Gologix.C67_corrected"
   ],
   "note": "False: the announced item length is 10 instead of 20, the client reports an error."
  },
  {
   "property": "C46",
   "status": "partial",
   "theorems": [
    "Gologix.C46_list_all_partial",
    "Gologix.C46_one_entry_pages_never_return",
    "Gologix.C46_system_page_never_returns",
    "Gologix.C46_error_status_accepted",
    "Gologix.C46_not_user_recorded",
    "Gologix.C46_fallback"
   ],
   "note": "Every user tag is recorded, and nothing else, when each incomplete reply gets the client on. False: an incomplete reply with one entry, or with system tags of a program only, is asked for forever; error statuses pass for complete lists; programs missing from the program list are recorded as tags."
  },
  {
   "property": "C43",
   "status": "partial",
   "theorems": [
    "Gologix.C43_distinct_partial",
    "Gologix.C43_remove_add_duplicates",
    "Gologix.C43_duplicates_after_history",
    "Gologix.C43_wraps"
   ],
   "note": "Positions are distinct for up to 65536 tags while nothing is added after a removal. False: a tag added after a removal takes the position of another one, and positions wrap at 65536 tags."
  },
  {
   "property": "C44",
   "status": "partial",
   "theorems": [
    "Gologix.C44_read_all_partial",
    "Gologix.C44_raw_partial",
    "Gologix.C44_ulint_unreadable",
    "Gologix.C44_long_text_cut",
    "Gologix.C44_many_tags_miscounted"
   ],
   "note": "Every tag gets the contents of its own slot for any history without removals, batches of up to 255 tags, types with a decoder and texts up to 82 bytes. False: one ULINT tag makes the whole buffer unreadable, longer texts are cut, batches of 256 and more tags are miscounted."
  },
  {
   "property": "C45",
   "status": "partial",
   "theorems": [
    "Gologix.C45_expand_partial",
    "Gologix.C45_new_group",
    "Gologix.C45_group_partial",
    "Gologix.C45_names_partial",
    "Gologix.C45_unindexed_repeats",
    "Gologix.C45_argument_filled",
    "Gologix.C45_word_arrays_as_dint",
    "Gologix.C45_refused_group_blocks_reads"
   ],
   "note": "Holds for array members that name their first element and arguments without braces. False: a member without an index at its end repeats the same tag; arguments are filled in in turn; WORD arrays are read as DINT; a refused group makes the buffer unreadable."
  },
  {
   "property": "C51",
   "status": "partial",
   "theorems": [
    "Gologix.C51_converted_partial",
    "Gologix.C51_upper_half_saturates",
    "Gologix.C51_unsigned_unknown",
    "Gologix.C51_bits"
   ],
   "note": "Proved for the signed types, for the lower half of the bit string types, and for bits; false for the upper half of the bit string types (saturated) and for USINT, UINT, UDINT and ULINT (a text instead of a number)."
  },
  {
   "property": "C68",
   "status": "partial",
   "theorems": [
    "Gologix.C68_loads_partial",
    "Gologix.C68_array_size",
    "Gologix.C68_loaded_partial",
    "Gologix.C68_controller_composites_dropped",
    "Gologix.C68_two_dimensions_fail",
    "Gologix.C68_struct_texts"
   ],
   "note": "Proved for single values of the controller and for values, structures and arrays of programs, when the export loads; false for structures and arrays of the controller (left out), arrays of more than one dimension (the export fails to load) and texts in structures."
  },
  {
   "property": "C52",
   "status": "partial",
   "theorems": [
    "Gologix.ServerIo.C52_input_sent",
    "Gologix.ServerIo.C52_input_received",
    "Gologix.ServerIo.C52_output_reaches",
    "Gologix.ServerIo.C52_output_unpacked",
    "Gologix.ServerIo.C52_output_any",
    "Gologix.ServerIo.C52_short_error",
    "Gologix.ServerIo.C52_short_item_error",
    "Gologix.ServerIo.C52_empty_field_accepted",
    "Gologix.ServerIo.C52_cut_datagram_accepted",
    "Gologix.ServerIo.C52_channels_partial",
    "Gologix.ServerIo.C52_channel_skipped"
   ],
   "note": "Proved for inputs, and for outputs of complete datagrams of less than 4096 bytes. False: the end of a cut datagram is read as zeros, a field of size zero lets a shorter payload pass, and the channel provider leaves out all channels from the first one nobody waits at."
  },
  {
   "property": "C69",
   "status": "partial",
   "theorems": [
    "Gologix.ServerIo.C69_refused_items_partial",
    "Gologix.ServerIo.C69_partly_written"
   ],
   "note": "Holds for messages refused before unpacking; false for payloads that end inside the structure: the fields before the end are overwritten."
  },
  {
   "property": "C35",
   "status": "partial",
   "theorems": [
    "Gologix.Server.C35_value_partial",
    "Gologix.Server.C35_element_partial",
    "Gologix.Server.C35_array_partial",
    "Gologix.Server.C35_bools_refused",
    "Gologix.Server.C35_slice_at_element_refused",
    "Gologix.Server.C35_single_replaces_array",
    "Gologix.Server.C35_new_array_unreadable",
    "Gologix.Server.C35_strings_shifted",
    "Gologix.Server.C35_forty_unreadable"
   ],
   "note": "Proved for single values (atomic or text up to 82 bytes) written to a whole tag or an array element, and for arrays of two or more elements written to an existing array of the same type. False: arrays of BOOL and arrays written from an element on are refused, an array of one element replaces the array by a value, a new array cannot be read, arrays of STRING are shifted, counts with low byte 0x28, 0x29 or 0x91 are taken for path segments."
  },
  {
   "property": "C36",
   "status": "partial",
   "theorems": [
    "Gologix.Server.C36_replies_partial",
    "Gologix.Server.C36_failing_request",
    "Gologix.Server.C36_other_service",
    "Gologix.Server.C36_string_write_refused",
    "Gologix.Server.C36_fragmented_write_misread"
   ],
   "note": "Proved for any list of reads and writes that succeed one after the other. False: one failing request leaves the whole packet unanswered with the earlier writes done, other services get an empty reply, a STRING write is refused, the offset of a fragmented write is stored as the value."
  },
  {
   "property": "C66",
   "status": "partial",
   "theorems": [
    "Gologix.C66_described_partial",
    "Gologix.C66_name_cut",
    "Gologix.C66_semicolon_panics",
    "Gologix.C66_length_wraps",
    "Gologix.C66_cut_name_accepted",
    "Gologix.C66_cycle_never_returns"
   ],
   "note": "Proved for structures of any nesting whose name is followed by nothing and whose definition arrives in one reply. False: a name followed by a semicolon loses its last character, and panics when empty; a reply cut in the last name is accepted; sizes wrap at 64 KiB; structures that contain themselves are asked for without end."
  },
  {
   "property": "C70",
   "status": "partial",
   "theorems": [
    "Gologix.Connect.C70_fields",
    "Gologix.Connect.C70_request_partial",
    "Gologix.Connect.C70_connects_partial",
    "Gologix.Connect.C70_route_cut",
    "Gologix.Connect.C70_no_route",
    "Gologix.Connect.C70_odd_route",
    "Gologix.Connect.C70_odd_route_parsed",
    "Gologix.Connect.C70_ids_collide"
   ],
   "note": "The fields of the request are proved for every client. The exchange with the server is proved for routes of two bytes and identifiers not in use. False: the server keeps two bytes of longer routes, and takes a segment of the message router for the route when there is none; routes of odd length give a wrong length; clients that choose the same identifier share the older connection."
  },
  {
   "property": "C71",
   "status": "partial",
   "theorems": [
    "Gologix.Connect.C71_request_partial",
    "Gologix.Connect.C71_closes_partial",
    "Gologix.Connect.C71_opened_and_closed_partial",
    "Gologix.Connect.C71_not_acknowledged",
    "Gologix.Connect.C71_first_left_open"
   ],
   "note": "Proved for serial numbers that are distinct in the table. False: the close is never acknowledged, and after a fallback a large connection the server had accepted stays open."
  },
  {
   "property": "C72",
   "status": "partial",
   "theorems": [
    "Gologix.Connect.C72_granted",
    "Gologix.Connect.C72_connected",
    "Gologix.Connect.C72_refused",
    "Gologix.Connect.C72_long_status",
    "Gologix.Connect.C72_any_answer"
   ],
   "note": "Holds for answers as the code understands them (C72_granted says exactly which are taken for grants).  Additional status of 128 words or more is not skipped, so the identifier is then wrong; an answer to any service and for any serial number counts."
  },
  {
   "property": "C73",
   "status": "partial",
   "theorems": [
    "Gologix.C73_struct_partial",
    "Gologix.C73_exactly",
    "Gologix.C73_crash",
    "Gologix.C73_no_struct",
    "Gologix.C73_map_partial",
    "Gologix.C73_strings_refused",
    "Gologix.C73_not_split",
    "Gologix.C73_arrays_dropped",
    "Gologix.C73_untagged"
   ],
   "note": "Proved for structures of any nesting with exported fields, no arrays and distinct tags; the request for single values. False: array fields are left out silently, fields without a tag overwrite one another, a field that is not exported panics, slices of strings make the call fail, and the packet is not split."
  },
  {
   "property": "C74",
   "status": "partial",
   "theorems": [
    "Gologix.C74_bound_partial",
    "Gologix.C74_fitting_read",
    "Gologix.C74_ref_added",
    "Gologix.C74_any_added",
    "Gologix.C74_struct_added_partial",
    "Gologix.C74_no_pointer",
    "Gologix.C74_composite",
    "Gologix.C74_short_slice",
    "Gologix.C74_unindexed_slice",
    "Gologix.C74_rebound",
    "Gologix.C74_hidden_panics",
    "Gologix.C74_embedded_misbound",
    "Gologix.C74_partly_updated"
   ],
   "note": "proved for distinct names and variables, and for structures without embedded ones whose tagged fields are supported values or slices of at least two; false for short slices (C74_short_slice: the tag is bound to the slice and every later read fails), slices of booleans, slices whose tag has no index (C74_unindexed_slice), a tag bound twice (C74_rebound), embedded structures (C74_embedded_misbound) and failing reads (C74_partly_updated)"
  },
  {
   "property": "C75",
   "status": "partial",
   "theorems": [
    "Gologix.C75_read_empty",
    "Gologix.C75_create",
    "Gologix.C75_close_request",
    "Gologix.C75_closed",
    "Gologix.C75_failed_close_forgets",
    "Gologix.C75_sync_after_close"
   ],
   "note": "false when the delete request fails (C75_failed_close_forgets) and for SyncTags, which sends after Close (C75_sync_after_close)"
  },
  {
   "property": "C76",
   "status": "partial",
   "theorems": [
    "Gologix.C76_structure_as_number",
    "Gologix.C76_crash",
    "Gologix.C76_fields_partial",
    "Gologix.C76_map_partial",
    "Gologix.C76_map_slice_changes",
    "Gologix.C76_slice_unreadable",
    "Gologix.C76_same_tag_twice",
    "Gologix.C76_embedded_misplaced",
    "Gologix.C26_readMulti_short_crash"
   ],
   "note": "Holds for structures without embedded ones whose tags differ and whose values have the type of their field, and for maps of single values. False for slices in maps (they become []any and are then asked for as one structure), for fields that are slices of one element or of booleans (never readable), for two fields with the same tag (the first keeps its value) for embedded structures (values go to other fields), and for tags that are structures where a number is expected (C76_structure_as_number: no error, the number is made of the first bytes)."
  },
  {
   "property": "C77",
   "status": "partial",
   "theorems": [
    "Gologix.C77_generic_partial",
    "Gologix.C77_generic_short",
    "Gologix.C77_multi_ignored",
    "Gologix.C77_echo_accepted",
    "Gologix.C77_sequence_ignored",
    "Gologix.C77_read_ignored",
    "Gologix.C77_write_ignored",
    "Gologix.C77_attributes_ignored"
   ],
   "note": "Holds for the service of replies to GenericCIPMessage and for the response bit of the embedded replies of a multi-tag read. False for the response bit of GenericCIPMessage, for the sequence count everywhere and for the service of replies to reads, writes and attribute requests, which are not looked at."
  },
  {
   "property": "C78",
   "status": "partial",
   "theorems": [
    "Gologix.Server.C78_framed",
    "Gologix.Server.C78_long_reply",
    "Gologix.Server.C78_addressed_partial",
    "Gologix.Server.C78_lookup_addressed",
    "Gologix.Server.C78_write_misaddressed",
    "Gologix.Server.C78_unknown_connection"
   ],
   "note": "C78_framed holds for any stream of bytes. C78_addressed_partial shows the sequence count for every service, C78_lookup_addressed the connection identifier for reads, multiple service requests and attribute reads. The claim is false: the acknowledgement of a write goes to the connection opened last (C78_write_misaddressed), the answer for an unknown connection has connection and sequence 0 (C78_unknown_connection), and the header of a reply of 64 KiB and more states a truncated length (C78_long_reply)."
  },
  {
   "property": "C79",
   "status": "partial",
   "theorems": [
    "Gologix.Server.C79_read_done",
    "Gologix.Server.C79_read_failed",
    "Gologix.Server.C79_write_done",
    "Gologix.Server.C79_write_failed_silent",
    "Gologix.Server.C79_unknown_service",
    "Gologix.Server.C79_read_true",
    "Gologix.Server.C79_read_missing",
    "Gologix.Server.C79_write_true",
    "Gologix.Server.C79_write_missing_silent"
   ],
   "note": "Success only for what was done, for reads and writes, for requests of any bytes (C79_read_done, C79_write_done) and in terms of the tag named and its values (C79_read_true, C79_write_true); error statuses for failing reads and unknown services. The claim is false for the rest: a failing write is not answered (C79_write_failed_silent) and a failing read ends the session (C79_read_failed)."
  },
  {
   "property": "C80",
   "status": "partial",
   "theorems": [
    "Gologix.Server.C80_complete",
    "Gologix.Server.C80_listed",
    "Gologix.Server.C80_instances",
    "Gologix.Server.C80_request_ignored",
    "Gologix.Server.C80_client_cannot_read",
    "Gologix.Server.C80_client_wrong_size"
   ],
   "note": "The list is complete, ordered and numbered if names have at most 255 bytes. False: start instance and attributes asked for are ignored (C80_request_ignored), and gologix's client expects array sizes in each entry, so that it fails on the list of one tag and misreads longer ones (C80_client_cannot_read, C80_client_wrong_size)."
  },
  {
   "property": "C81",
   "status": "partial",
   "theorems": [
    "Gologix.C81_described_partial",
    "Gologix.C81_bool_hidden",
    "Gologix.C81_nameless",
    "Gologix.C81_crash",
    "Gologix.C81_no_error"
   ],
   "note": "For numbers with a Logix name, arrays of numbers and structures, nested structures and booleans not directly followed by an array. False for the rest: a boolean after an array is left out (C81_bool_hidden), arrays of booleans and of arrays have no name (C81_nameless), empty arrays of structures and values that are no structures panic (C81_crash, which says that nothing else does)."
  },
  {
   "property": "C82",
   "status": "proved",
   "theorems": [
    "Gologix.C82_request",
    "Gologix.C82_read",
    "Gologix.C82_change_detected",
    "Gologix.C82_change_of_status",
    "Gologix.C82_refused",
    "Gologix.C82_watch",
    "Gologix.C82_watch_ends"
   ],
   "note": "The keep-alive for its default attributes; that ListAllTags works is assumed for the ticks counted."
  },
  {
   "property": "C83",
   "status": "partial",
   "theorems": [
    "Gologix.C83_requests",
    "Gologix.C83_forces",
    "Gologix.C83_forces_refused",
    "Gologix.C83_exist_is_enabled",
    "Gologix.C83_faults",
    "Gologix.C83_faults_short",
    "Gologix.C83_flags_partial",
    "Gologix.C83_flag_of_other_class",
    "Gologix.C83_description_partial",
    "Gologix.C83_misfiled",
    "Gologix.C83_no_fault"
   ],
   "note": "Values are read correctly. False: Exist is the same bit as Enabled (C83_exist_is_enabled); the flags of all fault types but power-up are one bit off the class (C83_flag_of_other_class); the description of fault 17:34 is filed under 17:32 with code 31 (C83_misfiled). Texts of descriptions are not modelled."
  },
  {
   "property": "C84",
   "status": "proved",
   "theorems": [
    "Gologix.C84_is_inside",
    "Gologix.C84_serve",
    "Gologix.C84_none_panics"
   ],
   "note": "For errors none of which was put together from no errors at all; such a one crashes (C84_none_panics) and the library makes none (C84_serve)."
  },
  {
   "property": "C85",
   "status": "partial",
   "theorems": [
    "Gologix.KeepAlive.C85_no_timeout",
    "Gologix.KeepAlive.C85_started",
    "Gologix.KeepAlive.C85_refused",
    "Gologix.KeepAlive.C85_cancelled",
    "Gologix.KeepAlive.C85_second_loop",
    "Gologix.KeepAlive.C85_crash_iff",
    "Gologix.KeepAlive.C85_never_again",
    "Gologix.KeepAlive.C85_documented_use_crashes",
    "Gologix.KeepAlive.C85_twice_crashes"
   ],
   "note": "Cancelling a running keep-alive works. False: it crashes when there is none or twice (C85_crash_iff, C85_twice_crashes), which with the automatic start off is always so (C85_documented_use_crashes); it never starts again (C85_never_again)."
  },
  {
   "property": "C86",
   "status": "partial",
   "theorems": [
    "Gologix.C86_values_partial",
    "Gologix.C86_accessors_safe",
    "Gologix.C86_accessors",
    "Gologix.C86_no_other_type",
    "Gologix.C86_asked_partial",
    "Gologix.C86_bool_array",
    "Gologix.C86_word_array",
    "Gologix.C86_same_name"
   ],
   "note": "For the values Spec.Means gives. False for arrays of BOOL (C86_bool_array), for the type asked for arrays of WORD (C86_word_array), and for definitions that come to the same name (C86_same_name)."
  },
  {
   "property": "C87",
   "status": "partial",
   "theorems": [
    "Gologix.C87_bits_partial",
    "Gologix.C87_bits_shifted",
    "Gologix.C87_bits_type_digit",
    "Gologix.C87_cdata_partial",
    "Gologix.C87_key",
    "Gologix.C87_type",
    "Gologix.C87_tags_partial",
    "Gologix.C87_rungs_partial",
    "Gologix.C87_quotes_lost",
    "Gologix.C87_program_tags_dropped",
    "Gologix.C87_tag_parts_dropped",
    "Gologix.C87_alias_dropped",
    "Gologix.C87_type_as_member",
    "Gologix.C87_no_members_panics",
    "Gologix.C87_short_target_panics",
    "Gologix.C87_recursive_type",
    "Gologix.C87_last_comment_kept"
   ],
   "note": "Everything said about modules, controller tags and their members by their types, and about rungs, is found, and nothing else. Missing or false: quotes at the ends of a text are lost; tags of programs, comments on parts of a tag and tags without data (aliases) are left out; the description of a type is filed as a member; types without members and bits of one-letter members crash."
  },
  {
   "property": "C88",
   "status": "partial",
   "theorems": [
    "Gologix.ReadStruct.C88_struct_partial",
    "Gologix.ReadStruct.C88_struct_found_partial",
    "Gologix.ReadStruct.C88_struct_short",
    "Gologix.ReadStruct.C88_struct_only",
    "Gologix.ReadStruct.C88_slice_partial",
    "Gologix.ReadStruct.C88_any_raw",
    "Gologix.ReadStruct.C88_partly_written",
    "Gologix.ReadStruct.C88_count_wraps",
    "Gologix.ReadStruct.C88_packed_panics",
    "Gologix.ReadStruct.C88_packed_never",
    "Gologix.ReadStruct.C88_other_pointer_panics",
    "Gologix.ReadStruct.C88_other_pointer_never",
    "Gologix.ReadStruct.C88_anys_panic",
    "Gologix.ReadStruct.C88_anys_twice",
    "Gologix.ReadStruct.C88_by_value_silent",
    "Gologix.C88_padded_array_wrong"
   ],
   "note": "Proved for structures whose arrays of structures need no padding and have no booleans: image to value and value to image, with any padding. False in parts: a read that fails half way has changed the first fields; the count of a slice wraps at 65536; ReadPacked, pointers to arrays or to named numbers, and slices of any panic; a structure passed by value is not read and no error is returned. Arrays of padded structures are read as if they had no padding, without an error. Missing: types with an Unpack method (members of the built-in types: C111)."
  },
  {
   "property": "C89",
   "status": "partial",
   "theorems": [
    "Gologix.UdtSize.C89_atomic_partial",
    "Gologix.UdtSize.C89_last_atomic_partial",
    "Gologix.UdtSize.C89_array_cut",
    "Gologix.UdtSize.C89_nested_by_number",
    "Gologix.UdtSize.C89_comment_wrong",
    "Gologix.UdtSize.C89_padding_left_out"
   ],
   "note": "True for single elementary members, and when such a member ends last and what counts for the others stays within it. False for arrays (one element counts), for nested structures (the low byte of the template number is taken for a type code), so that even the case its comment supposes right is not; padding at the end is left out."
  },
  {
   "property": "C90",
   "status": "partial",
   "theorems": [
    "Gologix.ServeLoop.C90_served",
    "Gologix.ServeLoop.C90_no_tcp",
    "Gologix.ServeLoop.C90_tcp_left_open",
    "Gologix.ServeLoop.C90_never_returns",
    "Gologix.ServeLoop.C90_spins"
   ],
   "note": "Connections and datagrams: true. False: with both listeners open Serve never returns, errors of Accept and ReadFrom are logged and tried again at once, even when the listener is closed (C90_never_returns, C90_spins); when the UDP port cannot be opened the TCP listener is left open (C90_tcp_left_open)."
  },
  {
   "property": "C91",
   "status": "partial",
   "theorems": [
    "Gologix.C91_removed",
    "Gologix.C91_only",
    "Gologix.C91_unknown",
    "Gologix.C91_pending_cannot_go"
   ],
   "note": "True except for tags the controller has not been told of: it is asked to remove them all the same, and if it refuses they stay (C91_pending_cannot_go). The positions of the tags behind the removed one are not changed, see C43."
  },
  {
   "property": "C92",
   "status": "partial",
   "theorems": [
    "Gologix.C92_lists",
    "Gologix.C92_crash_iff",
    "Gologix.C92_tags_partial",
    "Gologix.C92_members_partial",
    "Gologix.C92_table_partial",
    "Gologix.C92_typed",
    "Gologix.C92_slice_partial",
    "Gologix.C92_bools_partial",
    "Gologix.C92_struct",
    "Gologix.C92_structs",
    "Gologix.C92_open_partial"
   ],
   "note": "False: a reply with fewer than two items crashes most of these requests (exactly those, C92_crash_iff), a template whose text begins with a semicolon crashes ListMembers. Proved that nothing else does; slices of strings and empty slices are C26_string_array_crash and C56_empty_slice_panics."
  },
  {
   "property": "C93",
   "status": "partial",
   "theorems": [
    "Gologix.Server.C93_all",
    "Gologix.Server.C93_all_unconnected",
    "Gologix.Server.C93_single_partial",
    "Gologix.Server.C93_client_partial",
    "Gologix.Server.C93_name",
    "Gologix.Server.C93_absent_silent",
    "Gologix.Server.C93_unconnected_typed",
    "Gologix.Server.C93_absent_unconnected"
   ],
   "note": "All attributes at once: proved.  One attribute on a connection: proved for the numbers, with the service code of a read in the reply; false for the name (C93_name) and for what is absent (C93_absent_silent: no answer, the session ends).  One attribute outside a connection is false (C93_unconnected_typed: a type code in front), what is absent is proved there."
  },
  {
   "property": "C94",
   "status": "partial",
   "theorems": [
    "Gologix.Server.C94_read_partial",
    "Gologix.Server.C94_read_failed_silent",
    "Gologix.Server.C94_write_partial",
    "Gologix.Server.C94_write_failed_silent",
    "Gologix.Server.C94_write_odd_silent",
    "Gologix.Server.C94_write_string_silent",
    "Gologix.Server.C94_number_read",
    "Gologix.Server.C94_number_absent",
    "Gologix.Server.C94_number_write",
    "Gologix.Server.C94_number_refused",
    "Gologix.Server.C94_number_long",
    "Gologix.Server.C94_unknown",
    "Gologix.Server.C94_give_back_refused",
    "Gologix.Server.C94_give_back_corrupts"
   ],
   "note": "Proved: reads that succeed, writes of an even number of bytes, reads and writes by numbers up to 255 with their error statuses.  False, and proved false: a read or write that fails gets no answer and ends the session; an odd number of bytes and strings cannot be written; tags from number 256 on cannot be addressed; a number that was read cannot be given back, and a string of one character given back becomes 82 zeros."
  },
  {
   "property": "C95",
   "status": "partial",
   "theorems": [
    "Gologix.Server.C95_start",
    "Gologix.Server.C95_only",
    "Gologix.Server.C95_senders_partial",
    "Gologix.Server.C95_one_each",
    "Gologix.Server.C95_running",
    "Gologix.Server.C95_large_no_data",
    "Gologix.Server.C95_no_endpoint",
    "Gologix.Server.C95_zero_interval"
   ],
   "note": "Proved for requests in the standard form with an interval and a path that leads somewhere, in any history.  False, and proved false: in the large form the connection is opened and no data is ever sent; for a path that leads nowhere it is acknowledged and stays in the table although the session ends; an interval of zero ends the whole server."
  },
  {
   "property": "C96",
   "status": "partial",
   "theorems": [
    "Gologix.Server.C96_next",
    "Gologix.Server.C96_session",
    "Gologix.Server.C96_distinct_partial",
    "Gologix.Server.C96_pair_partial",
    "Gologix.Server.C96_taken_accepted"
   ],
   "note": "Proved for identifiers that requests leave to the server, if the random source does not repeat itself.  False, and proved false: an identifier that a request asks for is taken even if another open connection has it, and messages sent under it go to the older one."
  },
  {
   "property": "C97",
   "status": "partial",
   "theorems": [
    "Gologix.C97_add_partial",
    "Gologix.C97_ref_partial",
    "Gologix.C97_adds_partial",
    "Gologix.C97_struct_partial",
    "Gologix.C97_all_or_nothing",
    "Gologix.C97_refused",
    "Gologix.C97_not_created",
    "Gologix.C97_crash",
    "Gologix.C97_large_structure",
    "Gologix.C97_times"
   ],
   "note": "The sizes are those of the elementary types of the manual, the size the controller told for strings and structures below 65536 bytes, else 88; structures as in C74. False for names that crash (C55), for structures of 65536 bytes and more, whose size is cut, and for times of day and dates with time. A refused group leaves its names behind: see C45_refused_group_blocks_reads."
  },
  {
   "property": "C98",
   "status": "partial",
   "theorems": [
    "Gologix.ServerIo.C98_newest_partial",
    "Gologix.ServerIo.C98_last",
    "Gologix.ServerIo.C98_inputs",
    "Gologix.ServerIo.C98_untouched",
    "Gologix.ServerIo.C98_older_replaces",
    "Gologix.ServerIo.C98_idle_taken"
   ],
   "note": "the outputs are those of the message that came last, which is the newest one when the messages come in order; false otherwise: the numbers are not looked at, an older message replaces a newer one (C98_older_replaces)"
  },
  {
   "property": "C99",
   "status": "partial",
   "theorems": [
    "Gologix.ServerIo.C99_received_partial",
    "Gologix.ServerIo.C99_unreadable",
    "Gologix.ServerIo.C99_input",
    "Gologix.ServerIo.C99_first_blocks"
   ],
   "note": "a channel gives exactly the messages at which somebody waited at it and at all channels opened before it; false as stated: while nobody waits at the first channel no channel gets anything (C99_first_blocks)"
  },
  {
   "property": "C100",
   "status": "proved",
   "theorems": [
    "Gologix.ServerIo.C100_delivered",
    "Gologix.ServerIo.C100_dropped",
    "Gologix.ServerIo.C100_safe"
   ],
   "note": "For the structures of the pack model (C16)."
  },
  {
   "property": "C101",
   "status": "proved",
   "theorems": [
    "Gologix.Server.C101_element",
    "Gologix.Server.C101_array",
    "Gologix.Server.C101_always",
    "Gologix.Server.C101_replaced"
   ],
   "note": "Floating point and text conversions are left open in the model except for the type of their result. C101_replaced: a single value written under the array's own name replaces the array as a whole."
  },
  {
   "property": "C102",
   "status": "partial",
   "theorems": [
    "Gologix.Connect.C102_session",
    "Gologix.Connect.C102_no_session",
    "Gologix.Connect.C102_refusal_ignored"
   ],
   "note": "Holds but for a refused session: the status of the answer is not looked at, so Connect goes on."
  },
  {
   "property": "C103",
   "status": "partial",
   "theorems": [
    "Gologix.Connect.C103_dials",
    "Gologix.Connect.C103_asks",
    "Gologix.Connect.C103_keeps",
    "Gologix.Connect.C103_new",
    "Gologix.Connect.C103_logger",
    "Gologix.Connect.C103_vendor_left_out",
    "Gologix.Connect.C103_long_interval",
    "Gologix.Connect.C103_no_timeout",
    "Gologix.Connect.C103_no_logger"
   ],
   "note": "Proved for every client with a logger, and packet intervals below 2^32 microseconds. False, and proved false: the default vendor number goes to a field no message contains, so a client without one asks as vendor 0; longer packet intervals are cut; a timeout of zero, documented as none, becomes ten seconds; a client without a logger panics in Connect."
  },
  {
   "property": "C104",
   "status": "partial",
   "theorems": [
    "Gologix.Session.C104_connects_partial",
    "Gologix.Session.C104_session_partial",
    "Gologix.Session.C104_list_partial",
    "Gologix.Session.C104_missing_ends",
    "Gologix.Session.C104_several_absent_ends",
    "Gologix.Session.C104_list_absent_ends",
    "Gologix.Session.C104_map_string_ends",
    "Gologix.Session.C104_map_array",
    "Gologix.Session.C104_no_attributes",
    "Gologix.Session.C104_bools_end",
    "Gologix.Session.C104_strings_crash",
    "Gologix.Session.C104_structure_cut",
    "Gologix.Session.C104_structure_unread"
   ],
   "note": "Connecting takes two exchanges and joins the client to the server's tags; any sequence of reads and writes of tags, elements, arrays and several of them in one packet (ReadList, WriteMap) then behaves like a memory, and ReadList returns what is there under each of any number of tags. False for tags that do not exist (the client reports a short reply instead of the status, and the connection ends), for strings and arrays in WriteMap (the connection ends; the array is replaced by its first element), for lists of attributes (the keep-alive ends at once), for slices of booleans that are written (not answered, the connection ends), for two or more strings that are read at once (the client crashes) and for structures (sent without the handle, so that the first two bytes are lost). Booleans are read as the bits of words."
  },
  {
   "property": "C105",
   "status": "partial",
   "theorems": [
    "Gologix.WriteAny.C105_carried_partial",
    "Gologix.WriteAny.C105_only",
    "Gologix.WriteAny.C105_array_as_structure",
    "Gologix.WriteAny.C105_named_as_structure",
    "Gologix.WriteAny.C105_struct_pointer",
    "Gologix.WriteAny.C105_struct_slice",
    "Gologix.WriteAny.C105_bool_slice",
    "Gologix.WriteAny.C105_refused",
    "Gologix.WriteAny.C105_crash",
    "Gologix.WriteAny.C105_structure_back_partial"
   ],
   "note": "The values sent as they are, those refused and those that crash are determined exactly, except that of structures only those with a right description and layout are shown to be sent right.  False for arrays, values of named types, pointers to and slices of structures and slices of booleans, which are sent as a structure without a handle, and for nil and nil pointers, which crash."
  },
  {
   "property": "C106",
   "status": "partial",
   "theorems": [
    "Gologix.Session.C106_joins_partial",
    "Gologix.Session.C106_clients_partial",
    "Gologix.Session.C106_same_instant"
   ],
   "note": "A client that connects with an identifier no connection has joins the others, and any interleaving of calls of any number of clients behaves like one memory.  False for clients that connect in the same millisecond: they draw the same identifier, which the server takes twice, and the second works with the tags of the first's route.  Requests that are handled at the same time are the subject of C107."
  },
  {
   "property": "C107",
   "status": "partial",
   "theorems": [
    "Gologix.Server.C107_elements_partial",
    "Gologix.Server.C107_whole_partial",
    "Gologix.Server.C107_single",
    "Gologix.Server.C107_answered",
    "Gologix.Server.C107_torn"
   ],
   "note": "False: TagRead hands out a slice of the stored array and the reply is encoded after the lock is released, so a client can be sent an array the tag never held (C107_torn).  Proved: single values and elements are those of one time, arrays too if no element is written by itself meanwhile, and in any case every element is one the tag held there while the request was handled."
  },
  {
   "property": "C108",
   "status": "partial",
   "theorems": [
    "Gologix.Session.C108_never_lists",
    "Gologix.Session.C108_nothing_listed"
   ],
   "note": "The code violates the property: a server answers the request for the programs, as every request of that service, with its tags, and the client fails on them; so a server that has a tag is never listed (tag names that begin with a byte other than 0, lists that fit a frame). A server without tags is listed as such."
  },
  {
   "property": "C109",
   "status": "partial",
   "theorems": [
    "Gologix.Session.C109_arrives_partial",
    "Gologix.Session.C109_leaves_partial",
    "Gologix.Session.C109_lives_partial",
    "Gologix.Session.C109_gone",
    "Gologix.Session.C109_vanishes",
    "Gologix.Session.C109_closes_another",
    "Gologix.Session.C109_vanished"
   ],
   "note": "proved for any sequence of arrivals, calls, departures and disappearances in which every arriving client draws a serial number and an identifier that no connection has; false otherwise: serial numbers repeat every 65536 ms and the server closes the first connection with the number, which may be another client's, and the connections of clients that vanish stay in the table for ever, one for each (the others are not disturbed)"
  },
  {
   "property": "C110",
   "status": "partial",
   "theorems": [
    "Gologix.Session.C110_identity",
    "Gologix.Session.C110_attribute_partial",
    "Gologix.Session.C110_all",
    "Gologix.Session.C110_unsupported",
    "Gologix.Session.C110_clients_partial",
    "Gologix.Session.C110_services",
    "Gologix.Session.C110_name",
    "Gologix.Session.C110_absent_ends",
    "Gologix.Session.C110_thrown_out"
   ],
   "note": "identity, all attributes, single attributes but the name, and services the server does not have: proved; false for the list of services (unreadable, C67), the name as a single attribute (STRING instead of SHORT_STRING), and a single attribute or object that does not exist (no answer, the session ends)"
  },
  {
   "property": "C111",
   "status": "partial",
   "theorems": [
    "Gologix.C111_layout_partial",
    "Gologix.C111_aligned_partial",
    "Gologix.C111_read_partial",
    "Gologix.C111_roundtrip_partial",
    "Gologix.ReadOwn.C111_client_read_partial",
    "Gologix.ReadOwn.C111_client_slice_partial",
    "Gologix.WriteOwn.C111_written_partial",
    "Gologix.WriteOwn.C111_written_back_partial",
    "Gologix.WriteOwn.C111_pointer_wrong",
    "Gologix.WriteOwn.C111_written_slice_wrong",
    "Gologix.WriteOwn.C111_written_slice_size",
    "Gologix.C111_array_wrong",
    "Gologix.C111_array_no_image",
    "Gologix.C111_array_short",
    "Gologix.C111_array_own"
   ],
   "note": "Proved for members and nested structures at any depth, for reading them, or a slice of them, with a client, and for writing one of them; FS, LS, OV and ER of a TIMER are not packed (C19). False for arrays of built-in types: they are written and read field by field in Go's order without a control word, so that nothing written is the controller's image and the controller's image is too short. False for writing pointers to them and slices of them, which go without a handle and field by field. Missing: members of other types with Pack, Unpack or Bytes methods."
  },
  {
   "property": "C112",
   "status": "partial",
   "theorems": [
    "Gologix.C112_status_tells",
    "Gologix.C112_service_tells",
    "Gologix.C112_type_tells",
    "Gologix.C112_status_code",
    "Gologix.C112_type_code_partial",
    "Gologix.C112_services_unnamed",
    "Gologix.C112_lword_wrong",
    "Gologix.C112_error_tells_partial",
    "Gologix.C112_error_same",
    "Gologix.C112_generic_expected",
    "Gologix.C112_generic_expected_wrong",
    "Gologix.C112_generic_status_partial",
    "Gologix.C112_generic_cut",
    "Gologix.C112_service_shown_wrong",
    "Gologix.C112_service_failed_tells",
    "Gologix.C112_attributes_status",
    "Gologix.C112_reads_tell_partial",
    "Gologix.C112_reads_cut"
   ],
   "note": "Statuses, services and types are told apart. False: LWORD shows the code of ULINT, codes below 16 of types show a space for a digit, CIPError with extended codes of fewer than four digits can read alike, CIPStatusError shows 0x4F4B as expected, statuses above 255 lose their upper bits and can read OK."
  },
  {
   "property": "C113",
   "status": "partial",
   "theorems": [
    "Gologix.ClientTables.C113_plain_safe",
    "Gologix.ClientTables.C113_no_deadlock",
    "Gologix.ClientTables.C113_listing_clashes",
    "Gologix.ClientTables.C113_listings_clash",
    "Gologix.ClientTables.C113_members_clash",
    "Gologix.ClientTables.C113_types_clash",
    "Gologix.ClientTables.C113_listing_members_clash"
   ],
   "note": "Proved for goroutines that read and write; nobody waits for ever, with listings too. False when one lists: ListAllTags and ListMembers use the tables without a lock, so a listing clashes with any lookup of a path on firmware above 20, with sizes of structures, with template queries and with another listing. The Disconnect within an exchange that fails is included. Missing: the other fields of the client."
  },
  {
   "property": "C114",
   "status": "partial",
   "theorems": [
    "Gologix.Session.C114_fields_partial",
    "Gologix.Session.C114_map_partial",
    "Gologix.Session.C114_roundtrip_partial",
    "Gologix.Session.C114_type_crash",
    "Gologix.Session.C114_one_element_crash",
    "Gologix.Session.C114_missing_ends",
    "Gologix.Session.C114_map_missing_ends",
    "Gologix.Session.C114_fields_missing_ends",
    "Gologix.Session.C114_name_crash",
    "Gologix.Session.C114_hidden_crash"
   ],
   "note": "Proved for tags of the types asked for. False: a field of another type than the server's tag and a slice of one element crash the client (counterexamples), a name the server does not have leaves all unread and ends the connection (for all maps and structures: C114_map_missing_ends, C114_fields_missing_ends); a key with an unbalanced bracket and a tagged field that is not exported crash the client, whatever else is read (C114_name_crash, C114_hidden_crash)."
  },
  {
   "property": "C115",
   "status": "partial",
   "theorems": [
    "Gologix.Session.C115_stored_partial",
    "Gologix.Session.C115_written_partial",
    "Gologix.Session.C115_roundtrip_partial",
    "Gologix.Session.C115_slice_cut",
    "Gologix.Session.C115_slice_first",
    "Gologix.Session.C115_string_ends",
    "Gologix.Session.C115_string_half",
    "Gologix.Session.C115_type_changes",
    "Gologix.Session.C115_hidden_crash",
    "Gologix.Session.C115_no_structure",
    "Gologix.Session.C115_name_crash"
   ],
   "note": "Proved for structures without arrays, slices and strings. False: a slice replaces an array by its first element, or writes only the first element, and success is reported; a string ends the connection, after the values before it are written; a value of another type changes the type of the tag (counterexamples). A name with an unbalanced bracket and a field that is not exported crash the client before anything is sent, whatever else is written (C115_name_crash, C115_hidden_crash)."
  },
  {
   "property": "C116",
   "status": "partial",
   "theorems": [
    "Gologix.Session.C116_ends_at_once",
    "Gologix.Session.C116_attributes_refused",
    "Gologix.Session.C116_questions_refused",
    "Gologix.Session.C116_answered"
   ],
   "note": "Proved: the session and the server are not disturbed, the calls return errors, and a tick whose request is answered does what C82 says. False: the server refuses every list of attributes, so the keep-alive returns after its first request and no tick sends anything (C116_ends_at_once)."
  },
  {
   "property": "C117",
   "status": "partial",
   "theorems": [
    "Gologix.Session.C117_values_partial",
    "Gologix.Session.C117_accessors",
    "Gologix.Session.C117_short_ends",
    "Gologix.Session.C117_missing_ends",
    "Gologix.Session.C117_other_type"
   ],
   "note": "Proved for tags of the types defined, arrays not of BOOL or WORD (C86). False: an array shorter than defined or a tag that is not there leaves all unread and ends the connection (for all groups: C117_missing_ends), a tag of another type is not reported (counterexamples)."
  },
  {
   "property": "C118",
   "status": "partial",
   "theorems": [
    "Gologix.Session.C118_connects_partial",
    "Gologix.Session.C118_not_allowed",
    "Gologix.Session.C118_map_not_checked",
    "Gologix.Session.C118_missing_costs_next"
   ],
   "note": "Proved for routes of one hop and a free connection identifier, as C104. False for WriteMap, which does not look whether the client is connected (it crashes if it never was), and for the call after a read of a missing tag, which is lost (counterexamples)."
  },
  {
   "property": "C119",
   "status": "partial",
   "theorems": [
    "Gologix.Session.C119_read_partial",
    "Gologix.Session.C119_several_partial",
    "Gologix.Session.C119_several_exact",
    "Gologix.Session.C119_sint_refused",
    "Gologix.Session.C119_beyond",
    "Gologix.Session.C119_write_replaces",
    "Gologix.Session.C119_element_write_ends"
   ],
   "note": "Proved for reading bits inside the number and below 32, one or several of them with other values in a list, for every integer type but SINT. False for SINT (an error; in a list nil without an error), for bits outside the number (false without an error; lists exactly in C119_several_exact) and for writing a bit (the number is replaced by the boolean; of an element it is refused and the connection is lost) (counterexamples)."
  },
  {
   "property": "C120",
   "status": "partial",
   "theorems": [
    "Gologix.Session.C120_converts",
    "Gologix.Session.C120_array_converts",
    "Gologix.Session.C120_refused_partial",
    "Gologix.Session.C120_array_refused_partial"
   ],
   "note": "Proved for arrays of anything but strings, and for values the array takes. A refused write is an error and changes nothing, but the server does not answer it: the connection is lost and every later call fails (part of the same theorems)."
  },
  {
   "property": "C121",
   "status": "partial",
   "theorems": [
    "Gologix.Session.C121_all_partial",
    "Gologix.Session.C121_none_partial",
    "Gologix.Session.C121_half",
    "Gologix.Session.C121_large_crash"
   ],
   "note": "Proved for values that are all taken and have at most 32 KiB, and for packets whose first value is refused. When a later value is refused (an element that does not take it or is not there), the call is an error although those before it are written and those after it are not, and the connection is lost (counterexample, for all such packets). Values of which one begins beyond the first 32 KiB of the packet crash the server (C121_large_crash)."
  }
 ]
}
