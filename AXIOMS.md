# Axioms of the property theorems

Generated with `Lean.collectAxioms` over every theorem of `Verif/Props` named after a property.

## none

`C27_aliases`, `C40_conversions`, `C43_small_limit`

## propext

`C06_len_too_long`, `C105_overtakes`, `C27_message_type`, `C27_return_code`, `C27_rsomeip_message_type`, `C27_rsomeip_return_code`, `C30_alias_not_preserved`, `C32_truncated_accepted`, `C33_default`, `C33_header_builders`, `C33_message_builders`, `C48_not_kept`, `C49_accepts_overlap`, `C49_ignores_base`, `C60_race`, `C62_bytes`, `C70_would_block_ignored_partial`

## Quot.sound, propext

`C03_bool_empty`, `C03_bool_encode`, `C105_bypass`, `C105_due`, `C105_line`, `C105_order`, `C105_queue`, `C105_returns_partial`, `C105_stalls`, `C105_turns`, `C106_array_false`, `C106_other_bytes`, `C107_false`, `C107_more_partial`, `C108_repeated`, `C109_elements`, `C110_loss_stalls`, `C110_out_of_step`, `C110_stranger_stops_asker`, `C111_same_identity`, `C112_false`, `C114_false`, `C116_false`, `C117_false`, `C121_false`, `C123_len`, `C123_messages`, `C123_process`, `C123_types`, `C12_region_not_skipped`, `C13_truncated_accepted`, `C140_false`, `C144_false`, `C145_false`, `C14_does_not_terminate`, `C16_missing_data_accepted`, `C16_shifts`, `C24_message_id_order`, `C24_request_id_order`, `C25_prefix_not_set`, `C25_prefix_or`, `C25_set_prefix_partial`, `C28_is_tp`, `C28_standard_types`, `C33_map_replace`, `C34_answers`, `C35_check_iff`, `C35_unknown_types_rejected`, `C36_first_cause`, `C36_poll_first_cause`, `C36_process_first_cause`, `C37_answered_partial`, `C37_answered_when`, `C37_non_request_answered`, `C38_poll_iff`, `C38_rejections`, `C38_total`, `C39_refused`, `C40_duality`, `C42_endpoint_previous`, `C42_endpoint_registry`, `C42_interface_previous`, `C42_interface_registry`, `C47_refused`, `C49_continuation_partial`, `C59_size_limit`, `C62_depends_on_cut`, `C62_reads`, `C65_linearizable`, `C66_receiver_dropped`, `C66_send_never_blocks`, `C69_false`, `C70_false_alarm_closes`, `C76_messages_partial`, `C85_false`, `C87_false`, `C87_reads`, `C93_possible`

## Classical.choice, Quot.sound, propext

`C01_numbers_big_endian`, `C01_numbers_cover`, `C02_short_read`, `C03_bool_decode`, `C03_bool_round_trip`, `C04_size_agrees`, `C04_size_agrees_len`, `C05_independent_of_content`, `C05_only_appends`, `C06_fails_iff`, `C06_len_exact`, `C07_round_trip`, `C07_round_trip_delimited`, `C07_round_trip_len`, `C08_injective`, `C08_prefix_free`, `C09_no_panic`, `C09_value_or_error`, `C100_endpoint_hangs`, `C100_listener_hangs`, `C100_partial`, `C100_senders_hang`, `C101_bounded_partial`, `C101_emptied_partial`, `C101_false`, `C101_keeps`, `C101_keeps_interface`, `C101_keeps_shared`, `C102_connect`, `C102_datagram`, `C102_packets`, `C102_recv`, `C102_requests`, `C102_send_to`, `C102_sent`, `C103_packets`, `C103_proxy`, `C103_requests`, `C103_sent`, `C103_stub`, `C104_calls_partial`, `C104_deadlock`, `C104_for_ever`, `C104_messages_partial`, `C104_requests_partial`, `C104_send`, `C104_sent`, `C105_given_up`, `C106_again_partial`, `C106_exact`, `C106_no_longer_partial`, `C106_string_false`, `C107_fewer_partial`, `C107_truncated_partial`, `C108_once`, `C109_memory`, `C109_one_byte`, `C10_consumes_prefix`, `C110_answer`, `C110_answerer_partial`, `C110_asker_partial`, `C110_faithful_partial`, `C110_goes_on`, `C110_hear`, `C110_long_request_cut`, `C110_requests`, `C110_served`, `C110_stranger_stops_answerer`, `C111_apart_partial`, `C111_complete_partial`, `C111_join_mixes`, `C112_cut`, `C112_sent`, `C112_whole_partial`, `C113_marked_partial`, `C113_unmarked`, `C114_socket_partial`, `C115_goes_through`, `C115_none_opened`, `C115_reuses`, `C115_same_connection`, `C116_first`, `C116_present_partial`, `C116_soon`, `C117_any_message`, `C117_invalid`, `C117_refused_partial`, `C118_accept`, `C118_newest`, `C118_order`, `C119_oldest`, `C119_recv`, `C11_confined`, `C11_region_only`, `C120_exists`, `C120_first`, `C120_proxy`, `C120_serve`, `C120_stuck`, `C121_all_partial`, `C121_bytes`, `C121_order_partial`, `C121_sent_partial`, `C121_streams`, `C122_either`, `C122_len`, `C122_messages`, `C122_pieces`, `C122_poll`, `C122_round_trip`, `C122_segment`, `C122_types`, `C123_transfer`, `C123_written`, `C124_calls`, `C124_cancelled`, `C124_once`, `C124_released`, `C124_unsent`, `C125_connect_partial`, `C125_listen_partial`, `C125_no_connect`, `C125_no_listen`, `C125_no_proxy`, `C125_one_per_remote`, `C125_sockets`, `C126_accepted`, `C126_calls_partial`, `C126_datagrams`, `C126_deadlock`, `C126_received_partial`, `C126_requests_partial`, `C126_sent`, `C127_calls_partial`, `C127_deadlock`, `C127_received_partial`, `C127_requests_partial`, `C127_sent`, `C128_bytes_partial`, `C128_false`, `C128_messages_partial`, `C129_net`, `C129_net_goes`, `C129_tcp`, `C129_tcp_goes`, `C129_udp`, `C129_udp_call`, `C129_udp_goes`, `C12_region_consumed_fixed_partial`, `C12_region_consumed_iff_partial`, `C12_region_consumed_partial`, `C130_error_partial`, `C130_false`, `C130_many`, `C130_spins`, `C130_stays`, `C131_ends`, `C131_tcp`, `C131_udp`, `C132_datagram`, `C132_delivered`, `C133_proxy`, `C133_reply`, `C133_request`, `C133_stub`, `C134_proxy_partial`, `C134_reply_partial`, `C134_request_partial`, `C134_stub_partial`, `C135_bytes`, `C135_free`, `C135_messages`, `C135_reply`, `C135_request`, `C135_requests`, `C135_returns`, `C136_answer`, `C136_reaches`, `C136_tcp_partial`, `C137_ask`, `C137_round_trip`, `C137_tcp_ask_partial`, `C137_tcp_partial`, `C138_answer_partial`, `C138_blocked`, `C138_calls_partial`, `C138_false`, `C138_messages_partial`, `C138_requests_partial`, `C139_once`, `C139_reply`, `C139_request`, `C139_sent`, `C13_truncated_iff_partial`, `C13_truncated_rejected_partial`, `C140_fresh_partial`, `C141_proxy`, `C141_send`, `C141_stub`, `C142_connections`, `C142_proxy`, `C142_stub`, `C143_bytes`, `C143_fresh`, `C143_streams`, `C144_fresh_partial`, `C144_sent_partial`, `C145_once_partial`, `C146_bytes_partial`, `C146_false`, `C146_reply_partial`, `C146_request_partial`, `C147_false`, `C147_recv_partial`, `C147_send_partial`, `C148_ask`, `C148_round_trip`, `C149_ask_partial`, `C149_partial`, `C14_model_is_loop`, `C14_terminates_iff`, `C14_terminates_partial`, `C15_vec_fixed`, `C16_array_partial`, `C16_each_partial`, `C16_never_fails`, `C17_utf8_round_trip`, `C17_with_length`, `C18_little_endian_on_big_host`, `C18_utf16_round_trip_partial`, `C18_with_length_partial`, `C19_strict_big_host`, `C19_strict_little_host`, `C20_nul_never_round_trips`, `C20_nul_truncates_utf16`, `C20_nul_truncates_utf8`, `C20_round_trip_partial`, `C21_no_room_error`, `C21_room`, `C22_insufficient_truthful`, `C23_halves`, `C23_message_id_bijection`, `C23_message_id_wire`, `C23_request_id_bijection`, `C23_request_id_wire`, `C23_rsomeip_ids`, `C26_all_ids`, `C26_numbers`, `C26_period`, `C26_stays_enabled`, `C27_wire`, `C28_type_ignores_flag`, `C28_with_flags`, `C29_to_bytes_iff`, `C29_wire_layout`, `C30_round_trip`, `C30_round_trip_universe`, `C30_stream`, `C31_reencode`, `C32_accepts_rest`, `C32_short`, `C32_small_length`, `C32_truncated_partial`, `C33_rsomeip_builders`, `C39_accepted`, `C39_all_or_nothing_partial`, `C39_failed_serialization_writes`, `C39_not_all_or_nothing`, `C39_process_iff`, `C41_end_to_end`, `C43_count`, `C43_partition`, `C43_terminates`, `C44_reassembly`, `C45_rejects`, `C46_completed_is_original`, `C46_completes`, `C47_decode_total`, `C47_offset_saturates`, `C47_round_trip_partial`, `C47_written`, `C48_flag_lost`, `C48_flag_partial`, `C50_end_to_end`, `C51_interoperate`, `C51_rsomeip_round_trip`, `C51_same_bytes`, `C51_same_decoding`, `C52_all_or_nothing`, `C52_loop`, `C52_loop_ends`, `C52_messages`, `C52_trailing_bytes`, `C52_unique`, `C53_asked`, `C53_proxy`, `C53_stub`, `C54_closed_proxy`, `C54_closed_stub`, `C54_one`, `C54_refused`, `C55_all`, `C55_next`, `C55_remote`, `C56_all`, `C56_in_turn`, `C56_order`, `C56_stub`, `C56_stub_all`, `C57_complete`, `C57_demux`, `C57_distinct`, `C57_fates`, `C57_gaps`, `C57_losses`, `C57_routed`, `C58_admitted`, `C58_bound`, `C58_first_packet`, `C58_refused`, `C58_unchanged`, `C58_zero_backlog_panics`, `C60_cut_off`, `C60_keeps_working_partial`, `C60_second_connect_closes`, `C60_why_closed`, `C61_completes`, `C61_exact`, `C61_stream`, `C62_cut_invents`, `C62_cut_loses`, `C62_large_never_received`, `C62_whole_reads_partial`, `C63_eof_not_reported`, `C63_failure_closes_partial`, `C64_arrives`, `C64_partial_buffer_sent`, `C64_whole_partial`, `C65_progress`, `C66_completes`, `C66_response`, `C67_ids`, `C67_messages`, `C67_names`, `C67_numbers`, `C68_connects`, `C68_dead`, `C68_no_endpoint`, `C68_only_if_needed`, `C68_stream`, `C68_uses_registered`, `C69_last_partial`, `C69_message_partial`, `C69_owner_partial`, `C69_refused`, `C71_oversize_ends_connection`, `C71_sends_in_order`, `C71_small_messages_partial`, `C72_bounded`, `C72_goes_on`, `C72_order`, `C72_waits`, `C73_asked`, `C73_proxy`, `C73_stub`, `C74_all`, `C74_flushed`, `C74_order`, `C75_ends`, `C75_lasts`, `C76_hangs`, `C76_neighbours`, `C76_requests_partial`, `C77_ends`, `C77_rests`, `C78_proxy`, `C78_right_proxy`, `C78_right_stub`, `C78_stub`, `C79_closed_partial`, `C79_false`, `C79_last_partial`, `C80_closed_partial`, `C80_failure_not_reported`, `C81_accept_waits`, `C81_after_failure_partial`, `C81_runs_on`, `C82_once`, `C82_order`, `C82_proxy`, `C82_stub`, `C83_sent`, `C83_unchanged`, `C84_proxy`, `C84_proxy_closed`, `C84_stub`, `C84_stub_closed`, `C85_cut_off`, `C85_single_partial`, `C86_proxy`, `C86_send`, `C86_stub`, `C87_flushed`, `C87_given_partial`, `C87_goes_on`, `C87_messages_partial`, `C87_written`, `C88_tcp_false`, `C88_tcp_partial`, `C88_udp`, `C89_accepted`, `C89_calls`, `C89_comes_to_rest`, `C89_delivered`, `C89_received`, `C89_requests`, `C89_sent`, `C90_nothing`, `C90_over`, `C90_proxy`, `C90_stub`, `C91_running`, `C92_proxy`, `C92_proxy_closed`, `C92_stub`, `C92_stub_closed`, `C93_false`, `C93_recovers_partial`, `C94_proxy`, `C94_stub`, `C95_proxy`, `C95_stub`, `C96_bounded_partial`, `C96_false`, `C96_tcp_partial`, `C97_ends`, `C97_final`, `C97_iff`, `C97_works`, `C98_calls`, `C98_comes_to_rest`, `C98_received`, `C98_requests`, `C98_written`, `C99_false`, `C99_proxy_partial`, `C99_stub_partial`, `C99_to_proxy_partial`, `C99_to_stub_partial`
