# Axioms

Output of `#print axioms` for the theorems of MANIFEST.json, written by `tools/axioms.py`.

## none (14 theorems)

* `Gologix.C06_element_length_wrong`
* `Gologix.C13_layout`
* `Gologix.C13_type_codes`
* `Gologix.C13_ulint_unreadable`
* `Gologix.C30_counts_are_draws`
* `Gologix.C30_two_generators`
* `Gologix.C45_word_arrays_as_dint`
* `Gologix.C54_rejection_ignored`
* `Gologix.C73_arrays_dropped`
* `Gologix.C74_any_added`
* `Gologix.C74_ref_added`
* `Gologix.C84_none_panics`
* `Gologix.ReadStruct.C88_by_value_silent`
* `Gologix.UdtSize.C89_padding_left_out`

## propext (38 theorems)

* `Gologix.C01_send_loop`
* `Gologix.C06_declared_length`
* `Gologix.C06_getAttrSingle`
* `Gologix.C11_long_name_wrong`
* `Gologix.C26_getAttrSingle_partial`
* `Gologix.C26_readMulti_one_element_crash`
* `Gologix.C26_readMulti_short_crash`
* `Gologix.C26_readMulti_type_crash`
* `Gologix.C26_writeMap`
* `Gologix.C26_write_partial`
* `Gologix.C54_total`
* `Gologix.C58_bool_slice_type`
* `Gologix.C58_count_wraps`
* `Gologix.C58_write_slice_partial`
* `Gologix.C58_write_struct`
* `Gologix.C58_write_value`
* `Gologix.C73_no_struct`
* `Gologix.C74_hidden_panics`
* `Gologix.C76_map_slice_changes`
* `Gologix.C82_change_detected`
* `Gologix.C82_watch_ends`
* `Gologix.C83_misfiled`
* `Gologix.C83_no_fault`
* `Gologix.C86_accessors`
* `Gologix.C86_accessors_safe`
* `Gologix.C86_asked_partial`
* `Gologix.C86_no_other_type`
* `Gologix.C86_word_array`
* `Gologix.C92_lists`
* `Gologix.C92_typed`
* `Gologix.Conc.C27_disconnect_means`
* `Gologix.Conc.C62_double_close_crash`
* `Gologix.Conc.C62_nil_connection_crash`
* `Gologix.ServeLoop.C90_no_tcp`
* `Gologix.ServeLoop.C90_tcp_left_open`
* `Gologix.Server.C33_failed_write_unchanged`
* `Gologix.Server.C33_write_same_type`
* `Gologix.Session.C117_accessors`

## propext, Quot.sound (161 theorems)

* `Gologix.C04_getters`
* `Gologix.C04_item_read`
* `Gologix.C04_items_hostile`
* `Gologix.C05_decoders_sound`
* `Gologix.C06_declared_length_partial`
* `Gologix.C06_path_even`
* `Gologix.C06_word_count`
* `Gologix.C07_element_32bit_wrong`
* `Gologix.C07_element_injective`
* `Gologix.C07_element_partial`
* `Gologix.C111_array_no_image`
* `Gologix.C111_array_short`
* `Gologix.C111_array_wrong`
* `Gologix.C11_announced_length`
* `Gologix.C11_long_name_cut`
* `Gologix.C11_symbolic_path_wellformed`
* `Gologix.C12_out_of_range_silent`
* `Gologix.C12_sint_refused`
* `Gologix.C13_consumes`
* `Gologix.C14_empty_panics`
* `Gologix.C14_not_multiple_rejected`
* `Gologix.C15_footprint`
* `Gologix.C17_array_of_flags`
* `Gologix.C17_array_of_structs_unaligned`
* `Gologix.C18_bool_array_is_run`
* `Gologix.C18_fresh_byte`
* `Gologix.C18_nested_array_not_packed`
* `Gologix.C19_bit_positions`
* `Gologix.C19_short_input`
* `Gologix.C19_words`
* `Gologix.C20_requests`
* `Gologix.C21_untyped_struct_overruns`
* `Gologix.C22_oversized_tag_loops`
* `Gologix.C23_readMulti_partial`
* `Gologix.C23_string_replies`
* `Gologix.C25_multi_embedded`
* `Gologix.C26_multi_entry_partial`
* `Gologix.C26_no_items_crash`
* `Gologix.C26_others_partial`
* `Gologix.C26_readT`
* `Gologix.C26_read_partial`
* `Gologix.C30_distinct`
* `Gologix.C30_repeats`
* `Gologix.C41_concat`
* `Gologix.C41_sticky`
* `Gologix.C43_distinct_partial`
* `Gologix.C43_wraps`
* `Gologix.C44_many_tags_miscounted`
* `Gologix.C44_ulint_unreadable`
* `Gologix.C45_new_group`
* `Gologix.C45_unindexed_repeats`
* `Gologix.C48_publish`
* `Gologix.C50_injective`
* `Gologix.C50_involution`
* `Gologix.C50_recognised`
* `Gologix.C54_slice_announced_as_one`
* `Gologix.C55_no_panic_partial`
* `Gologix.C55_unbalanced_bracket_panics`
* `Gologix.C56_empty_slice_panics`
* `Gologix.C56_one_element_refused`
* `Gologix.C57_no_extra_values_partial`
* `Gologix.C73_not_split`
* `Gologix.C73_strings_refused`
* `Gologix.C73_untagged`
* `Gologix.C74_fitting_read`
* `Gologix.C75_closed`
* `Gologix.C75_failed_close_forgets`
* `Gologix.C75_read_empty`
* `Gologix.C76_crash`
* `Gologix.C77_multi_ignored`
* `Gologix.C83_description_partial`
* `Gologix.C83_exist_is_enabled`
* `Gologix.C83_faults_short`
* `Gologix.C83_flag_of_other_class`
* `Gologix.C83_flags_partial`
* `Gologix.C84_is_inside`
* `Gologix.C84_serve`
* `Gologix.C86_bool_array`
* `Gologix.C86_same_name`
* `Gologix.C91_unknown`
* `Gologix.C92_bools_partial`
* `Gologix.C92_slice_partial`
* `Gologix.C92_struct`
* `Gologix.C92_structs`
* `Gologix.C97_add_partial`
* `Gologix.C97_adds_partial`
* `Gologix.C97_all_or_nothing`
* `Gologix.C97_crash`
* `Gologix.C97_large_structure`
* `Gologix.C97_not_created`
* `Gologix.C97_ref_partial`
* `Gologix.C97_refused`
* `Gologix.C97_times`
* `Gologix.ClientTables.C113_listing_clashes`
* `Gologix.ClientTables.C113_listing_members_clash`
* `Gologix.ClientTables.C113_listings_clash`
* `Gologix.ClientTables.C113_members_clash`
* `Gologix.ClientTables.C113_types_clash`
* `Gologix.Conc.C27_disconnect_refused_while_connecting`
* `Gologix.Conc.C27_disconnects_end_disconnected`
* `Gologix.Conc.C27_log`
* `Gologix.Conc.C27_outcome`
* `Gologix.Conc.C27_quiescent`
* `Gologix.Conc.C27_refused`
* `Gologix.Conc.C27_success_means`
* `Gologix.Conc.C28_dial_only_from_disconnected`
* `Gologix.Conc.C28_one_dialler`
* `Gologix.Conc.C29_exchanges`
* `Gologix.Conc.C29_reply_follows_request`
* `Gologix.Conc.C29_streams`
* `Gologix.Conc.C60_replies_in_order`
* `Gologix.Conc.C60_success_has_reply`
* `Gologix.Conc.C61_connections_apart_partial`
* `Gologix.Conc.C61_late_reply_alone`
* `Gologix.Conc.C61_late_reply_to_other_goroutine`
* `Gologix.Conc.C62_no_crash_partial`
* `Gologix.Conc.C63_at_most_one_in_use`
* `Gologix.Conc.C63_connected_open`
* `Gologix.Conc.C63_failed_connect_leaks`
* `Gologix.Conc.C63_left_open`
* `Gologix.Connect.C102_refusal_ignored`
* `Gologix.Connect.C103_keeps`
* `Gologix.Connect.C103_no_timeout`
* `Gologix.Connect.C70_fields`
* `Gologix.Connect.C70_odd_route`
* `Gologix.Connect.C70_odd_route_parsed`
* `Gologix.Connect.C70_request_partial`
* `Gologix.Connect.C71_request_partial`
* `Gologix.KeepAlive.C85_cancelled`
* `Gologix.KeepAlive.C85_crash_iff`
* `Gologix.KeepAlive.C85_documented_use_crashes`
* `Gologix.KeepAlive.C85_never_again`
* `Gologix.KeepAlive.C85_no_timeout`
* `Gologix.KeepAlive.C85_refused`
* `Gologix.KeepAlive.C85_second_loop`
* `Gologix.KeepAlive.C85_started`
* `Gologix.KeepAlive.C85_twice_crashes`
* `Gologix.ReadStruct.C88_count_wraps`
* `Gologix.ReadStruct.C88_other_pointer_never`
* `Gologix.ReadStruct.C88_packed_never`
* `Gologix.ServeLoop.C90_never_returns`
* `Gologix.ServeLoop.C90_spins`
* `Gologix.Server.C33_negative_count_panics`
* `Gologix.Server.C33_out_of_range`
* `Gologix.Server.C33_read_partial`
* `Gologix.Server.C33_write`
* `Gologix.Server.C80_instances`
* `Gologix.ServerIo.C100_safe`
* `Gologix.ServerIo.C52_empty_field_accepted`
* `Gologix.ServerIo.C52_output_any`
* `Gologix.ServerIo.C52_short_item_error`
* `Gologix.ServerIo.C69_refused_items_partial`
* `Gologix.ServerIo.C98_inputs`
* `Gologix.ServerIo.C99_first_blocks`
* `Gologix.ServerIo.C99_input`
* `Gologix.ServerIo.C99_unreadable`
* `Gologix.UdtSize.C89_array_cut`
* `Gologix.UdtSize.C89_comment_wrong`
* `Gologix.UdtSize.C89_nested_by_number`
* `Gologix.WriteOwn.C111_written_slice_size`
* `Gologix.getTagFromPath_fuel`

## propext, Classical.choice, Quot.sound (523 theorems)

* `Gologix.C01_frame_any_size`
* `Gologix.C01_frame_layout`
* `Gologix.C01_frame_roundtrip`
* `Gologix.C02_frames_in_order`
* `Gologix.C03_items_layout`
* `Gologix.C03_items_roundtrip`
* `Gologix.C05_attribute`
* `Gologix.C05_class`
* `Gologix.C05_getAttrSingle_path`
* `Gologix.C05_instance`
* `Gologix.C08_count_eaten`
* `Gologix.C08_index32_lost`
* `Gologix.C08_tag_path_roundtrip_partial`
* `Gologix.C09_known_tags_differ`
* `Gologix.C09_request_path_denotes`
* `Gologix.C09_request_paths_differ`
* `Gologix.C10_case_and_history`
* `Gologix.C10_same_later`
* `Gologix.C111_aligned_partial`
* `Gologix.C111_array_own`
* `Gologix.C111_layout_partial`
* `Gologix.C111_read_partial`
* `Gologix.C111_roundtrip_partial`
* `Gologix.C112_attributes_status`
* `Gologix.C112_error_same`
* `Gologix.C112_error_tells_partial`
* `Gologix.C112_generic_cut`
* `Gologix.C112_generic_expected`
* `Gologix.C112_generic_expected_wrong`
* `Gologix.C112_generic_status_partial`
* `Gologix.C112_lword_wrong`
* `Gologix.C112_reads_cut`
* `Gologix.C112_reads_tell_partial`
* `Gologix.C112_service_failed_tells`
* `Gologix.C112_service_shown_wrong`
* `Gologix.C112_service_tells`
* `Gologix.C112_services_unnamed`
* `Gologix.C112_status_code`
* `Gologix.C112_status_tells`
* `Gologix.C112_type_code_partial`
* `Gologix.C112_type_tells`
* `Gologix.C11_known_path_wellformed`
* `Gologix.C12_bit_number_limit`
* `Gologix.C12_bit_of_value_partial`
* `Gologix.C12_bit_path_partial`
* `Gologix.C12_high_bit_member`
* `Gologix.C12_read_bit_partial`
* `Gologix.C13_value_roundtrip`
* `Gologix.C14_bools_partial`
* `Gologix.C15_long_string_overclaims`
* `Gologix.C15_string_array_element`
* `Gologix.C15_string_partial`
* `Gologix.C15_written`
* `Gologix.C16_roundtrip`
* `Gologix.C16_slice`
* `Gologix.C17_aligned_partial`
* `Gologix.C17_elements_partial`
* `Gologix.C17_layout_partial`
* `Gologix.C17_scalar_bits_partial`
* `Gologix.C18_pack_run`
* `Gologix.C18_unpack_run`
* `Gologix.C18_unpack_short`
* `Gologix.C19_control_roundtrip`
* `Gologix.C19_counter_roundtrip`
* `Gologix.C19_other_bits`
* `Gologix.C19_timer_drops_bits`
* `Gologix.C19_timer_roundtrip_partial`
* `Gologix.C20_offsets_partial`
* `Gologix.C20_reassembly_partial`
* `Gologix.C20_struct_refused`
* `Gologix.C21_readBatches_partial`
* `Gologix.C21_readList_partial`
* `Gologix.C21_sint_bit_nil`
* `Gologix.C22_empty_reply`
* `Gologix.C22_readBatches_partial`
* `Gologix.C22_readList_partial`
* `Gologix.C23_odd_size_exceeded`
* `Gologix.C23_readMulti_exceeds`
* `Gologix.C23_reply_bound_partial`
* `Gologix.C23_reply_data_partial`
* `Gologix.C23_reply_exceeds`
* `Gologix.C23_request_fits_partial`
* `Gologix.C23_request_within_one`
* `Gologix.C24_packet`
* `Gologix.C24_read_requests`
* `Gologix.C25_forward_open`
* `Gologix.C25_fragment`
* `Gologix.C25_generic`
* `Gologix.C25_getAttrList`
* `Gologix.C25_getAttrSingle_ignores`
* `Gologix.C25_multi`
* `Gologix.C25_read`
* `Gologix.C25_readT`
* `Gologix.C25_write`
* `Gologix.C26_crash_iff`
* `Gologix.C26_multi_offset_crash`
* `Gologix.C26_string_array_crash`
* `Gologix.C40_dot_accepted`
* `Gologix.C40_dot_first_panics`
* `Gologix.C40_exactly`
* `Gologix.C40_numbers`
* `Gologix.C40_route`
* `Gologix.C41_address_panics`
* `Gologix.C41_index_dropped`
* `Gologix.C41_segment_partial`
* `Gologix.C42_builtin_fixed`
* `Gologix.C42_burst`
* `Gologix.C42_crc`
* `Gologix.C42_crc_unique`
* `Gologix.C42_identifier`
* `Gologix.C43_duplicates_after_history`
* `Gologix.C43_remove_add_duplicates`
* `Gologix.C44_long_text_cut`
* `Gologix.C44_raw_partial`
* `Gologix.C44_read_all_partial`
* `Gologix.C45_argument_filled`
* `Gologix.C45_expand_partial`
* `Gologix.C45_group_partial`
* `Gologix.C45_names_partial`
* `Gologix.C45_refused_group_blocks_reads`
* `Gologix.C46_error_status_accepted`
* `Gologix.C46_fallback`
* `Gologix.C46_list_all_partial`
* `Gologix.C46_not_user_recorded`
* `Gologix.C46_one_entry_pages_never_return`
* `Gologix.C46_system_page_never_returns`
* `Gologix.C47_atomic_no_template`
* `Gologix.C47_exactly_one`
* `Gologix.C47_member`
* `Gologix.C47_predefined`
* `Gologix.C47_tag`
* `Gologix.C48_parse`
* `Gologix.C48_roundtrip`
* `Gologix.C49_all`
* `Gologix.C49_record`
* `Gologix.C49_short`
* `Gologix.C51_bits`
* `Gologix.C51_converted_partial`
* `Gologix.C51_unsigned_unknown`
* `Gologix.C51_upper_half_saturates`
* `Gologix.C53_blanks`
* `Gologix.C53_complete`
* `Gologix.C53_cut_header_accepted`
* `Gologix.C53_cut_name`
* `Gologix.C53_partial_status`
* `Gologix.C54_writes_partial`
* `Gologix.C55_crash_always`
* `Gologix.C55_crash_exact`
* `Gologix.C55_never_refused`
* `Gologix.C56_read_array_partial`
* `Gologix.C56_read_scalar`
* `Gologix.C56_read_string`
* `Gologix.C56_typed`
* `Gologix.C57_missing_values_accepted`
* `Gologix.C57_values_shift`
* `Gologix.C59_bit_write_ignores_bit`
* `Gologix.C66_cut_name_accepted`
* `Gologix.C66_cycle_never_returns`
* `Gologix.C66_described_partial`
* `Gologix.C66_length_wraps`
* `Gologix.C66_name_cut`
* `Gologix.C66_semicolon_panics`
* `Gologix.C67_corrected`
* `Gologix.C67_unreadable`
* `Gologix.C68_array_size`
* `Gologix.C68_controller_composites_dropped`
* `Gologix.C68_loaded_partial`
* `Gologix.C68_loads_partial`
* `Gologix.C68_struct_texts`
* `Gologix.C68_two_dimensions_fail`
* `Gologix.C73_crash`
* `Gologix.C73_exactly`
* `Gologix.C73_map_partial`
* `Gologix.C73_struct_partial`
* `Gologix.C74_bound_partial`
* `Gologix.C74_composite`
* `Gologix.C74_embedded_misbound`
* `Gologix.C74_no_pointer`
* `Gologix.C74_partly_updated`
* `Gologix.C74_rebound`
* `Gologix.C74_short_slice`
* `Gologix.C74_struct_added_partial`
* `Gologix.C74_unindexed_slice`
* `Gologix.C75_close_request`
* `Gologix.C75_create`
* `Gologix.C75_sync_after_close`
* `Gologix.C76_embedded_misplaced`
* `Gologix.C76_fields_partial`
* `Gologix.C76_map_partial`
* `Gologix.C76_same_tag_twice`
* `Gologix.C76_slice_unreadable`
* `Gologix.C76_structure_as_number`
* `Gologix.C77_attributes_ignored`
* `Gologix.C77_echo_accepted`
* `Gologix.C77_generic_partial`
* `Gologix.C77_generic_short`
* `Gologix.C77_read_ignored`
* `Gologix.C77_sequence_ignored`
* `Gologix.C77_write_ignored`
* `Gologix.C81_bool_hidden`
* `Gologix.C81_crash`
* `Gologix.C81_described_partial`
* `Gologix.C81_nameless`
* `Gologix.C81_no_error`
* `Gologix.C82_change_of_status`
* `Gologix.C82_read`
* `Gologix.C82_refused`
* `Gologix.C82_request`
* `Gologix.C82_watch`
* `Gologix.C83_faults`
* `Gologix.C83_forces`
* `Gologix.C83_forces_refused`
* `Gologix.C83_requests`
* `Gologix.C86_values_partial`
* `Gologix.C87_alias_dropped`
* `Gologix.C87_bits_partial`
* `Gologix.C87_bits_shifted`
* `Gologix.C87_bits_type_digit`
* `Gologix.C87_cdata_partial`
* `Gologix.C87_key`
* `Gologix.C87_last_comment_kept`
* `Gologix.C87_no_members_panics`
* `Gologix.C87_program_tags_dropped`
* `Gologix.C87_quotes_lost`
* `Gologix.C87_recursive_type`
* `Gologix.C87_rungs_partial`
* `Gologix.C87_short_target_panics`
* `Gologix.C87_tag_parts_dropped`
* `Gologix.C87_tags_partial`
* `Gologix.C87_type`
* `Gologix.C87_type_as_member`
* `Gologix.C88_padded_array_wrong`
* `Gologix.C91_only`
* `Gologix.C91_pending_cannot_go`
* `Gologix.C91_removed`
* `Gologix.C92_crash_iff`
* `Gologix.C92_members_partial`
* `Gologix.C92_open_partial`
* `Gologix.C92_table_partial`
* `Gologix.C92_tags_partial`
* `Gologix.C97_struct_partial`
* `Gologix.ClientTables.C113_no_deadlock`
* `Gologix.ClientTables.C113_plain_safe`
* `Gologix.Connect.C102_no_session`
* `Gologix.Connect.C102_session`
* `Gologix.Connect.C103_asks`
* `Gologix.Connect.C103_dials`
* `Gologix.Connect.C103_logger`
* `Gologix.Connect.C103_long_interval`
* `Gologix.Connect.C103_new`
* `Gologix.Connect.C103_no_logger`
* `Gologix.Connect.C103_vendor_left_out`
* `Gologix.Connect.C70_connects_partial`
* `Gologix.Connect.C70_ids_collide`
* `Gologix.Connect.C70_no_route`
* `Gologix.Connect.C70_route_cut`
* `Gologix.Connect.C71_closes_partial`
* `Gologix.Connect.C71_first_left_open`
* `Gologix.Connect.C71_not_acknowledged`
* `Gologix.Connect.C71_opened_and_closed_partial`
* `Gologix.Connect.C72_any_answer`
* `Gologix.Connect.C72_connected`
* `Gologix.Connect.C72_granted`
* `Gologix.Connect.C72_long_status`
* `Gologix.Connect.C72_refused`
* `Gologix.ReadOwn.C111_client_read_partial`
* `Gologix.ReadOwn.C111_client_slice_partial`
* `Gologix.ReadStruct.C88_any_raw`
* `Gologix.ReadStruct.C88_anys_panic`
* `Gologix.ReadStruct.C88_anys_twice`
* `Gologix.ReadStruct.C88_other_pointer_panics`
* `Gologix.ReadStruct.C88_packed_panics`
* `Gologix.ReadStruct.C88_partly_written`
* `Gologix.ReadStruct.C88_slice_partial`
* `Gologix.ReadStruct.C88_struct_found_partial`
* `Gologix.ReadStruct.C88_struct_only`
* `Gologix.ReadStruct.C88_struct_partial`
* `Gologix.ReadStruct.C88_struct_short`
* `Gologix.ServeLoop.C90_served`
* `Gologix.Server.C101_always`
* `Gologix.Server.C101_array`
* `Gologix.Server.C101_element`
* `Gologix.Server.C101_replaced`
* `Gologix.Server.C107_answered`
* `Gologix.Server.C107_elements_partial`
* `Gologix.Server.C107_single`
* `Gologix.Server.C107_torn`
* `Gologix.Server.C107_whole_partial`
* `Gologix.Server.C31_close_local`
* `Gologix.Server.C31_flag`
* `Gologix.Server.C31_lookup`
* `Gologix.Server.C31_missing`
* `Gologix.Server.C32_array`
* `Gologix.Server.C32_missing`
* `Gologix.Server.C32_narrowed`
* `Gologix.Server.C32_scalar`
* `Gologix.Server.C32_wire_array`
* `Gologix.Server.C33_negative_count_panics_whole`
* `Gologix.Server.C33_write_converts`
* `Gologix.Server.C34_other_paths`
* `Gologix.Server.C34_route`
* `Gologix.Server.C35_array_partial`
* `Gologix.Server.C35_bools_refused`
* `Gologix.Server.C35_element_partial`
* `Gologix.Server.C35_forty_unreadable`
* `Gologix.Server.C35_new_array_unreadable`
* `Gologix.Server.C35_single_replaces_array`
* `Gologix.Server.C35_slice_at_element_refused`
* `Gologix.Server.C35_strings_shifted`
* `Gologix.Server.C35_value_partial`
* `Gologix.Server.C36_failing_request`
* `Gologix.Server.C36_fragmented_write_misread`
* `Gologix.Server.C36_other_service`
* `Gologix.Server.C36_replies_partial`
* `Gologix.Server.C36_string_write_refused`
* `Gologix.Server.C37_crash_count_any`
* `Gologix.Server.C37_crash_empty_any`
* `Gologix.Server.C37_crash_empty_write`
* `Gologix.Server.C37_crash_interval_any`
* `Gologix.Server.C37_crash_multi_offset`
* `Gologix.Server.C37_crash_offset_any`
* `Gologix.Server.C37_crash_open`
* `Gologix.Server.C37_crash_path`
* `Gologix.Server.C37_crash_read_count`
* `Gologix.Server.C37_crash_read_path`
* `Gologix.Server.C37_crash_send_any`
* `Gologix.Server.C37_crash_unconnected_send`
* `Gologix.Server.C37_crash_zero_interval`
* `Gologix.Server.C37_only_hostile_partial`
* `Gologix.Server.C37_path_panics_iff`
* `Gologix.Server.C37_stream_partial`
* `Gologix.Server.C38_any_bytes`
* `Gologix.Server.C38_connected_partial`
* `Gologix.Server.C38_get_attr_single_code`
* `Gologix.Server.C38_list_services_command`
* `Gologix.Server.C38_register`
* `Gologix.Server.C38_rr_connected_item`
* `Gologix.Server.C38_session_not_checked`
* `Gologix.Server.C38_unconnected_partial`
* `Gologix.Server.C38_unconnected_send_partial`
* `Gologix.Server.C39_close`
* `Gologix.Server.C39_close_not_acknowledged`
* `Gologix.Server.C39_open`
* `Gologix.Server.C39_serials_collide`
* `Gologix.Server.C39_step`
* `Gologix.Server.C39_table_partial`
* `Gologix.Server.C64_requests_partial`
* `Gologix.Server.C64_result_changes_later`
* `Gologix.Server.C64_two_tags_share`
* `Gologix.Server.C65_close_by_anyone`
* `Gologix.Server.C65_named_partial`
* `Gologix.Server.C65_serial_partial`
* `Gologix.Server.C65_stranger_closes`
* `Gologix.Server.C78_addressed_partial`
* `Gologix.Server.C78_framed`
* `Gologix.Server.C78_long_reply`
* `Gologix.Server.C78_lookup_addressed`
* `Gologix.Server.C78_unknown_connection`
* `Gologix.Server.C78_write_misaddressed`
* `Gologix.Server.C79_read_done`
* `Gologix.Server.C79_read_failed`
* `Gologix.Server.C79_read_missing`
* `Gologix.Server.C79_read_true`
* `Gologix.Server.C79_unknown_service`
* `Gologix.Server.C79_write_done`
* `Gologix.Server.C79_write_failed_silent`
* `Gologix.Server.C79_write_missing_silent`
* `Gologix.Server.C79_write_true`
* `Gologix.Server.C80_client_cannot_read`
* `Gologix.Server.C80_client_wrong_size`
* `Gologix.Server.C80_complete`
* `Gologix.Server.C80_listed`
* `Gologix.Server.C80_request_ignored`
* `Gologix.Server.C93_absent_silent`
* `Gologix.Server.C93_absent_unconnected`
* `Gologix.Server.C93_all`
* `Gologix.Server.C93_all_unconnected`
* `Gologix.Server.C93_client_partial`
* `Gologix.Server.C93_name`
* `Gologix.Server.C93_single_partial`
* `Gologix.Server.C93_unconnected_typed`
* `Gologix.Server.C94_give_back_corrupts`
* `Gologix.Server.C94_give_back_refused`
* `Gologix.Server.C94_number_absent`
* `Gologix.Server.C94_number_long`
* `Gologix.Server.C94_number_read`
* `Gologix.Server.C94_number_refused`
* `Gologix.Server.C94_number_write`
* `Gologix.Server.C94_read_failed_silent`
* `Gologix.Server.C94_read_partial`
* `Gologix.Server.C94_unknown`
* `Gologix.Server.C94_write_failed_silent`
* `Gologix.Server.C94_write_odd_silent`
* `Gologix.Server.C94_write_partial`
* `Gologix.Server.C94_write_string_silent`
* `Gologix.Server.C95_large_no_data`
* `Gologix.Server.C95_no_endpoint`
* `Gologix.Server.C95_one_each`
* `Gologix.Server.C95_only`
* `Gologix.Server.C95_running`
* `Gologix.Server.C95_senders_partial`
* `Gologix.Server.C95_start`
* `Gologix.Server.C95_zero_interval`
* `Gologix.Server.C96_distinct_partial`
* `Gologix.Server.C96_next`
* `Gologix.Server.C96_pair_partial`
* `Gologix.Server.C96_session`
* `Gologix.Server.C96_taken_accepted`
* `Gologix.ServerIo.C100_delivered`
* `Gologix.ServerIo.C100_dropped`
* `Gologix.ServerIo.C52_channel_skipped`
* `Gologix.ServerIo.C52_channels_partial`
* `Gologix.ServerIo.C52_cut_datagram_accepted`
* `Gologix.ServerIo.C52_input_received`
* `Gologix.ServerIo.C52_input_sent`
* `Gologix.ServerIo.C52_output_reaches`
* `Gologix.ServerIo.C52_output_unpacked`
* `Gologix.ServerIo.C52_short_error`
* `Gologix.ServerIo.C69_partly_written`
* `Gologix.ServerIo.C98_idle_taken`
* `Gologix.ServerIo.C98_last`
* `Gologix.ServerIo.C98_newest_partial`
* `Gologix.ServerIo.C98_older_replaces`
* `Gologix.ServerIo.C98_untouched`
* `Gologix.ServerIo.C99_received_partial`
* `Gologix.Session.C104_bools_end`
* `Gologix.Session.C104_connects_partial`
* `Gologix.Session.C104_list_absent_ends`
* `Gologix.Session.C104_list_partial`
* `Gologix.Session.C104_map_array`
* `Gologix.Session.C104_map_string_ends`
* `Gologix.Session.C104_missing_ends`
* `Gologix.Session.C104_no_attributes`
* `Gologix.Session.C104_session_partial`
* `Gologix.Session.C104_several_absent_ends`
* `Gologix.Session.C104_strings_crash`
* `Gologix.Session.C104_structure_cut`
* `Gologix.Session.C104_structure_unread`
* `Gologix.Session.C106_clients_partial`
* `Gologix.Session.C106_joins_partial`
* `Gologix.Session.C106_same_instant`
* `Gologix.Session.C108_never_lists`
* `Gologix.Session.C108_nothing_listed`
* `Gologix.Session.C109_arrives_partial`
* `Gologix.Session.C109_closes_another`
* `Gologix.Session.C109_gone`
* `Gologix.Session.C109_leaves_partial`
* `Gologix.Session.C109_lives_partial`
* `Gologix.Session.C109_vanished`
* `Gologix.Session.C109_vanishes`
* `Gologix.Session.C110_absent_ends`
* `Gologix.Session.C110_all`
* `Gologix.Session.C110_attribute_partial`
* `Gologix.Session.C110_clients_partial`
* `Gologix.Session.C110_identity`
* `Gologix.Session.C110_name`
* `Gologix.Session.C110_services`
* `Gologix.Session.C110_thrown_out`
* `Gologix.Session.C110_unsupported`
* `Gologix.Session.C114_fields_missing_ends`
* `Gologix.Session.C114_fields_partial`
* `Gologix.Session.C114_hidden_crash`
* `Gologix.Session.C114_map_missing_ends`
* `Gologix.Session.C114_map_partial`
* `Gologix.Session.C114_missing_ends`
* `Gologix.Session.C114_name_crash`
* `Gologix.Session.C114_one_element_crash`
* `Gologix.Session.C114_roundtrip_partial`
* `Gologix.Session.C114_type_crash`
* `Gologix.Session.C115_hidden_crash`
* `Gologix.Session.C115_name_crash`
* `Gologix.Session.C115_no_structure`
* `Gologix.Session.C115_roundtrip_partial`
* `Gologix.Session.C115_slice_cut`
* `Gologix.Session.C115_slice_first`
* `Gologix.Session.C115_stored_partial`
* `Gologix.Session.C115_string_ends`
* `Gologix.Session.C115_string_half`
* `Gologix.Session.C115_type_changes`
* `Gologix.Session.C115_written_partial`
* `Gologix.Session.C116_answered`
* `Gologix.Session.C116_attributes_refused`
* `Gologix.Session.C116_ends_at_once`
* `Gologix.Session.C116_questions_refused`
* `Gologix.Session.C117_missing_ends`
* `Gologix.Session.C117_other_type`
* `Gologix.Session.C117_short_ends`
* `Gologix.Session.C117_values_partial`
* `Gologix.Session.C118_connects_partial`
* `Gologix.Session.C118_map_not_checked`
* `Gologix.Session.C118_missing_costs_next`
* `Gologix.Session.C118_not_allowed`
* `Gologix.Session.C119_beyond`
* `Gologix.Session.C119_element_write_ends`
* `Gologix.Session.C119_read_partial`
* `Gologix.Session.C119_several_exact`
* `Gologix.Session.C119_several_partial`
* `Gologix.Session.C119_sint_refused`
* `Gologix.Session.C119_write_replaces`
* `Gologix.Session.C120_array_converts`
* `Gologix.Session.C120_array_refused_partial`
* `Gologix.Session.C120_converts`
* `Gologix.Session.C120_refused_partial`
* `Gologix.Session.C121_all_partial`
* `Gologix.Session.C121_half`
* `Gologix.Session.C121_large_crash`
* `Gologix.Session.C121_none_partial`
* `Gologix.UdtSize.C89_atomic_partial`
* `Gologix.UdtSize.C89_last_atomic_partial`
* `Gologix.WriteAny.C105_array_as_structure`
* `Gologix.WriteAny.C105_bool_slice`
* `Gologix.WriteAny.C105_carried_partial`
* `Gologix.WriteAny.C105_crash`
* `Gologix.WriteAny.C105_named_as_structure`
* `Gologix.WriteAny.C105_only`
* `Gologix.WriteAny.C105_refused`
* `Gologix.WriteAny.C105_struct_pointer`
* `Gologix.WriteAny.C105_struct_slice`
* `Gologix.WriteAny.C105_structure_back_partial`
* `Gologix.WriteOwn.C111_pointer_wrong`
* `Gologix.WriteOwn.C111_written_back_partial`
* `Gologix.WriteOwn.C111_written_partial`
* `Gologix.WriteOwn.C111_written_slice_wrong`
