{
 "claims": [
  {
   "property": "C01",
   "status": "proved",
   "theorems": [
    "Rsomeip.C01_numbers_big_endian",
    "Rsomeip.C01_numbers_cover"
   ],
   "note": "All ten numeric types; floats as IEEE bit patterns."
  },
  {
   "property": "C02",
   "status": "proved",
   "theorems": [
    "Rsomeip.C02_short_read"
   ],
   "note": ""
  },
  {
   "property": "C03",
   "status": "proved",
   "theorems": [
    "Rsomeip.C03_bool_encode",
    "Rsomeip.C03_bool_decode",
    "Rsomeip.C03_bool_round_trip",
    "Rsomeip.C03_bool_empty"
   ],
   "note": ""
  },
  {
   "property": "C04",
   "status": "proved",
   "theorems": [
    "Rsomeip.C04_size_agrees",
    "Rsomeip.C04_size_agrees_len"
   ],
   "note": ""
  },
  {
   "property": "C05",
   "status": "proved",
   "theorems": [
    "Rsomeip.C05_only_appends",
    "Rsomeip.C05_independent_of_content"
   ],
   "note": ""
  },
  {
   "property": "C06",
   "status": "proved",
   "theorems": [
    "Rsomeip.C06_len_exact",
    "Rsomeip.C06_len_too_long",
    "Rsomeip.C06_fails_iff"
   ],
   "note": ""
  },
  {
   "property": "C07",
   "status": "proved",
   "theorems": [
    "Rsomeip.C07_round_trip_delimited",
    "Rsomeip.C07_round_trip",
    "Rsomeip.C07_round_trip_len"
   ],
   "note": ""
  },
  {
   "property": "C08",
   "status": "proved",
   "theorems": [
    "Rsomeip.C08_prefix_free",
    "Rsomeip.C08_injective"
   ],
   "note": ""
  },
  {
   "property": "C09",
   "status": "proved",
   "theorems": [
    "Rsomeip.C09_no_panic",
    "Rsomeip.C09_value_or_error"
   ],
   "note": ""
  },
  {
   "property": "C10",
   "status": "proved",
   "theorems": [
    "Rsomeip.C10_consumes_prefix"
   ],
   "note": ""
  },
  {
   "property": "C11",
   "status": "proved",
   "theorems": [
    "Rsomeip.C11_confined",
    "Rsomeip.C11_region_only"
   ],
   "note": ""
  },
  {
   "property": "C12",
   "status": "partial",
   "theorems": [
    "Rsomeip.C12_region_not_skipped",
    "Rsomeip.C12_region_consumed_partial",
    "Rsomeip.C12_region_consumed_fixed_partial",
    "Rsomeip.C12_region_consumed_iff_partial"
   ],
   "note": "False in general (C12_region_not_skipped). Proved for inner types ending in Vec/Bytes and for fixed-size types with matching length."
  },
  {
   "property": "C13",
   "status": "partial",
   "theorems": [
    "Rsomeip.C13_truncated_accepted",
    "Rsomeip.C13_truncated_rejected_partial",
    "Rsomeip.C13_truncated_iff_partial"
   ],
   "note": "False in general (C13_truncated_accepted). Proved for fixed-size inner types."
  },
  {
   "property": "C14",
   "status": "partial",
   "theorems": [
    "Rsomeip.C14_model_is_loop",
    "Rsomeip.C14_does_not_terminate",
    "Rsomeip.C14_terminates_partial",
    "Rsomeip.C14_terminates_iff"
   ],
   "note": "False in general (C14_does_not_terminate). C14_terminates_iff gives the exact condition on the element type."
  },
  {
   "property": "C15",
   "status": "proved",
   "theorems": [
    "Rsomeip.C15_vec_fixed"
   ],
   "note": ""
  },
  {
   "property": "C16",
   "status": "partial",
   "theorems": [
    "Rsomeip.C16_never_fails",
    "Rsomeip.C16_missing_data_accepted",
    "Rsomeip.C16_array_partial",
    "Rsomeip.C16_each_partial",
    "Rsomeip.C16_shifts"
   ],
   "note": "False (C16_never_fails: array decoding never fails). C16_array_partial says exactly what is returned instead for numeric elements, C16_each_partial for every element type; C16_shifts: one malformed element makes those after it be read from the middle of it."
  },
  {
   "property": "C17",
   "status": "proved",
   "theorems": [
    "Rsomeip.C17_utf8_round_trip",
    "Rsomeip.C17_with_length"
   ],
   "note": ""
  },
  {
   "property": "C18",
   "status": "partial",
   "theorems": [
    "Rsomeip.C18_utf16_round_trip_partial",
    "Rsomeip.C18_with_length_partial",
    "Rsomeip.C18_little_endian_on_big_host"
   ],
   "note": "False for little-endian strings on big-endian hosts (C18_little_endian_on_big_host); proved for every other combination."
  },
  {
   "property": "C19",
   "status": "proved",
   "theorems": [
    "Rsomeip.C19_strict_little_host",
    "Rsomeip.C19_strict_big_host"
   ],
   "note": "Exact characterisation on little-endian hosts; on big-endian hosts the little-endian mark is followed by big-endian units (consequence of C18)."
  },
  {
   "property": "C20",
   "status": "partial",
   "theorems": [
    "Rsomeip.C20_nul_truncates_utf8",
    "Rsomeip.C20_nul_truncates_utf16",
    "Rsomeip.C20_nul_never_round_trips",
    "Rsomeip.C20_round_trip_partial"
   ],
   "note": "False (C20_nul_never_round_trips, for every string containing NUL). C20_round_trip_partial: a string round-trips exactly if it contains no NUL."
  },
  {
   "property": "C21",
   "status": "proved",
   "theorems": [
    "Rsomeip.C21_room",
    "Rsomeip.C21_no_room_error"
   ],
   "note": "The documented error for lack of room never occurs: the code panics instead."
  },
  {
   "property": "C22",
   "status": "proved",
   "theorems": [
    "Rsomeip.C22_insufficient_truthful"
   ],
   "note": ""
  },
  {
   "property": "C23",
   "status": "proved",
   "theorems": [
    "Rsomeip.C23_message_id_bijection",
    "Rsomeip.C23_request_id_bijection",
    "Rsomeip.C23_halves",
    "Rsomeip.C23_message_id_wire",
    "Rsomeip.C23_request_id_wire",
    "Rsomeip.C23_rsomeip_ids"
   ],
   "note": ""
  },
  {
   "property": "C24",
   "status": "proved",
   "theorems": [
    "Rsomeip.C24_message_id_order",
    "Rsomeip.C24_request_id_order"
   ],
   "note": ""
  },
  {
   "property": "C25",
   "status": "partial",
   "theorems": [
    "Rsomeip.C25_prefix_or",
    "Rsomeip.C25_set_prefix_partial",
    "Rsomeip.C25_prefix_not_set"
   ],
   "note": "False in general (C25_prefix_not_set: with_prefix ORs). The partial theorem gives the exact condition."
  },
  {
   "property": "C26",
   "status": "proved",
   "theorems": [
    "Rsomeip.C26_stays_enabled",
    "Rsomeip.C26_period",
    "Rsomeip.C26_all_ids",
    "Rsomeip.C26_numbers"
   ],
   "note": ""
  },
  {
   "property": "C27",
   "status": "proved",
   "theorems": [
    "Rsomeip.C27_message_type",
    "Rsomeip.C27_return_code",
    "Rsomeip.C27_rsomeip_message_type",
    "Rsomeip.C27_rsomeip_return_code",
    "Rsomeip.C27_wire",
    "Rsomeip.C27_aliases"
   ],
   "note": ""
  },
  {
   "property": "C28",
   "status": "proved",
   "theorems": [
    "Rsomeip.C28_with_flags",
    "Rsomeip.C28_is_tp",
    "Rsomeip.C28_type_ignores_flag",
    "Rsomeip.C28_standard_types"
   ],
   "note": ""
  },
  {
   "property": "C29",
   "status": "proved",
   "theorems": [
    "Rsomeip.C29_wire_layout",
    "Rsomeip.C29_to_bytes_iff"
   ],
   "note": ""
  },
  {
   "property": "C30",
   "status": "proved",
   "theorems": [
    "Rsomeip.C30_round_trip",
    "Rsomeip.C30_round_trip_universe",
    "Rsomeip.C30_stream",
    "Rsomeip.C30_alias_not_preserved"
   ],
   "note": "Alias return codes come back as the code with the same number (C30_alias_not_preserved)."
  },
  {
   "property": "C31",
   "status": "proved",
   "theorems": [
    "Rsomeip.C31_reencode"
   ],
   "note": ""
  },
  {
   "property": "C32",
   "status": "partial",
   "theorems": [
    "Rsomeip.C32_short",
    "Rsomeip.C32_small_length",
    "Rsomeip.C32_accepts_rest",
    "Rsomeip.C32_truncated_partial",
    "Rsomeip.C32_truncated_accepted"
   ],
   "note": "The truncation part is false for raw payloads (C32_truncated_accepted); proved for payload decoders that reject proper prefixes."
  },
  {
   "property": "C33",
   "status": "proved",
   "theorems": [
    "Rsomeip.C33_message_builders",
    "Rsomeip.C33_header_builders",
    "Rsomeip.C33_default",
    "Rsomeip.C33_map_replace",
    "Rsomeip.C33_rsomeip_builders"
   ],
   "note": ""
  },
  {
   "property": "C34",
   "status": "proved",
   "theorems": [
    "Rsomeip.C34_answers"
   ],
   "note": ""
  },
  {
   "property": "C35",
   "status": "proved",
   "theorems": [
    "Rsomeip.C35_check_iff",
    "Rsomeip.C35_unknown_types_rejected"
   ],
   "note": ""
  },
  {
   "property": "C36",
   "status": "proved",
   "theorems": [
    "Rsomeip.C36_first_cause",
    "Rsomeip.C36_poll_first_cause",
    "Rsomeip.C36_process_first_cause"
   ],
   "note": ""
  },
  {
   "property": "C37",
   "status": "partial",
   "theorems": [
    "Rsomeip.C37_answered_partial",
    "Rsomeip.C37_answered_when",
    "Rsomeip.C37_non_request_answered"
   ],
   "note": "False in general (C37_non_request_answered). The partial theorem characterises when an answer is due; only requests sent to stub methods or procedures are at stake."
  },
  {
   "property": "C38",
   "status": "proved",
   "theorems": [
    "Rsomeip.C38_poll_iff",
    "Rsomeip.C38_rejections",
    "Rsomeip.C38_total"
   ],
   "note": ""
  },
  {
   "property": "C39",
   "status": "partial",
   "theorems": [
    "Rsomeip.C39_accepted",
    "Rsomeip.C39_refused",
    "Rsomeip.C39_process_iff",
    "Rsomeip.C39_failed_serialization_writes",
    "Rsomeip.C39_all_or_nothing_partial",
    "Rsomeip.C39_not_all_or_nothing"
   ],
   "note": "False for messages whose payload fails to serialize (C39_not_all_or_nothing: four bytes of message id are already written). Proved for every refusal by the check and for payloads that serialize."
  },
  {
   "property": "C40",
   "status": "proved",
   "theorems": [
    "Rsomeip.C40_duality",
    "Rsomeip.C40_conversions"
   ],
   "note": ""
  },
  {
   "property": "C41",
   "status": "proved",
   "theorems": [
    "Rsomeip.C41_end_to_end"
   ],
   "note": ""
  },
  {
   "property": "C42",
   "status": "proved",
   "theorems": [
    "Rsomeip.C42_endpoint_registry",
    "Rsomeip.C42_endpoint_previous",
    "Rsomeip.C42_interface_registry",
    "Rsomeip.C42_interface_previous"
   ],
   "note": ""
  },
  {
   "property": "C43",
   "status": "proved",
   "theorems": [
    "Rsomeip.C43_terminates",
    "Rsomeip.C43_partition",
    "Rsomeip.C43_count",
    "Rsomeip.C43_small_limit"
   ],
   "note": ""
  },
  {
   "property": "C44",
   "status": "proved",
   "theorems": [
    "Rsomeip.C44_reassembly"
   ],
   "note": ""
  },
  {
   "property": "C45",
   "status": "proved",
   "theorems": [
    "Rsomeip.C45_rejects"
   ],
   "note": ""
  },
  {
   "property": "C46",
   "status": "proved",
   "theorems": [
    "Rsomeip.C46_completed_is_original",
    "Rsomeip.C46_completes"
   ],
   "note": ""
  },
  {
   "property": "C47",
   "status": "partial",
   "theorems": [
    "Rsomeip.C47_written",
    "Rsomeip.C47_round_trip_partial",
    "Rsomeip.C47_offset_saturates",
    "Rsomeip.C47_refused",
    "Rsomeip.C47_decode_total"
   ],
   "note": "False for offsets above 2^28-1, which saturate (C47_offset_saturates). Proved for representable offsets."
  },
  {
   "property": "C48",
   "status": "partial",
   "theorems": [
    "Rsomeip.C48_flag_partial",
    "Rsomeip.C48_flag_lost",
    "Rsomeip.C48_not_kept"
   ],
   "note": "False when a non-final segment is split again (C48_flag_lost). Proved for final headers."
  },
  {
   "property": "C49",
   "status": "partial",
   "theorems": [
    "Rsomeip.C49_continuation_partial",
    "Rsomeip.C49_accepts_overlap",
    "Rsomeip.C49_ignores_base"
   ],
   "note": "False in general (C49_accepts_overlap, C49_ignores_base). Exact condition of join proved."
  },
  {
   "property": "C50",
   "status": "proved",
   "theorems": [
    "Rsomeip.C50_end_to_end"
   ],
   "note": ""
  },
  {
   "property": "C51",
   "status": "proved",
   "theorems": [
    "Rsomeip.C51_same_bytes",
    "Rsomeip.C51_same_decoding",
    "Rsomeip.C51_interoperate",
    "Rsomeip.C51_rsomeip_round_trip"
   ],
   "note": ""
  },
  {
   "property": "C52",
   "status": "proved",
   "theorems": [
    "Rsomeip.C52_all_or_nothing",
    "Rsomeip.C52_unique",
    "Rsomeip.C52_messages",
    "Rsomeip.C52_trailing_bytes",
    "Rsomeip.C52_loop",
    "Rsomeip.C52_loop_ends"
   ],
   "note": ""
  },
  {
   "property": "C53",
   "status": "proved",
   "theorems": [
    "Rsomeip.C53_stub",
    "Rsomeip.C53_proxy",
    "Rsomeip.C53_asked"
   ],
   "note": ""
  },
  {
   "property": "C54",
   "status": "proved",
   "theorems": [
    "Rsomeip.C54_refused",
    "Rsomeip.C54_one",
    "Rsomeip.C54_closed_stub",
    "Rsomeip.C54_closed_proxy"
   ],
   "note": ""
  },
  {
   "property": "C55",
   "status": "proved",
   "theorems": [
    "Rsomeip.C55_remote",
    "Rsomeip.C55_all",
    "Rsomeip.C55_next"
   ],
   "note": ""
  },
  {
   "property": "C56",
   "status": "proved",
   "theorems": [
    "Rsomeip.C56_in_turn",
    "Rsomeip.C56_order",
    "Rsomeip.C56_all",
    "Rsomeip.C56_stub",
    "Rsomeip.C56_stub_all"
   ],
   "note": ""
  },
  {
   "property": "C57",
   "status": "proved",
   "theorems": [
    "Rsomeip.C57_fates",
    "Rsomeip.C57_routed",
    "Rsomeip.C57_gaps",
    "Rsomeip.C57_complete",
    "Rsomeip.C57_demux",
    "Rsomeip.C57_distinct",
    "Rsomeip.C57_losses"
   ],
   "note": ""
  },
  {
   "property": "C58",
   "status": "proved",
   "theorems": [
    "Rsomeip.C58_bound",
    "Rsomeip.C58_admitted",
    "Rsomeip.C58_refused",
    "Rsomeip.C58_unchanged",
    "Rsomeip.C58_first_packet",
    "Rsomeip.C58_zero_backlog_panics"
   ],
   "note": "listen with backlog 0 panics (C58_zero_backlog_panics)."
  },
  {
   "property": "C59",
   "status": "proved",
   "theorems": [
    "Rsomeip.C59_size_limit"
   ],
   "note": ""
  },
  {
   "property": "C60",
   "status": "partial",
   "theorems": [
    "Rsomeip.C60_second_connect_closes",
    "Rsomeip.C60_keeps_working_partial",
    "Rsomeip.C60_race",
    "Rsomeip.C60_why_closed",
    "Rsomeip.C60_cut_off"
   ],
   "note": "False (C60_second_connect_closes: the first connection closes; C60_race: it can also happen without a second live connection). The partial theorem proves the connection keeps working as long as nobody connects to the same address again."
  },
  {
   "property": "C61",
   "status": "proved",
   "theorems": [
    "Rsomeip.C61_exact",
    "Rsomeip.C61_completes",
    "Rsomeip.C61_stream"
   ],
   "note": ""
  },
  {
   "property": "C62",
   "status": "partial",
   "theorems": [
    "Rsomeip.C62_reads",
    "Rsomeip.C62_bytes",
    "Rsomeip.C62_large_never_received",
    "Rsomeip.C62_cut_invents",
    "Rsomeip.C62_cut_loses",
    "Rsomeip.C62_depends_on_cut",
    "Rsomeip.C62_whole_reads_partial"
   ],
   "note": "False (C62_depends_on_cut, C62_cut_invents, C62_cut_loses, C62_large_never_received). Proved for reads that end at message boundaries."
  },
  {
   "property": "C63",
   "status": "partial",
   "theorems": [
    "Rsomeip.C63_eof_not_reported",
    "Rsomeip.C63_failure_closes_partial"
   ],
   "note": "False (C63_eof_not_reported). Proved for failing reads."
  },
  {
   "property": "C64",
   "status": "partial",
   "theorems": [
    "Rsomeip.C64_whole_partial",
    "Rsomeip.C64_partial_buffer_sent",
    "Rsomeip.C64_arrives"
   ],
   "note": "False for messages longer than the length field can express (C64_partial_buffer_sent); for all other messages exactly the wire layout is sent."
  },
  {
   "property": "C65",
   "status": "proved",
   "theorems": [
    "Rsomeip.C65_linearizable",
    "Rsomeip.C65_progress"
   ],
   "note": ""
  },
  {
   "property": "C66",
   "status": "proved",
   "theorems": [
    "Rsomeip.C66_response",
    "Rsomeip.C66_completes",
    "Rsomeip.C66_send_never_blocks",
    "Rsomeip.C66_receiver_dropped"
   ],
   "note": ""
  },
  {
   "property": "C67",
   "status": "proved",
   "theorems": [
    "Rsomeip.C67_numbers",
    "Rsomeip.C67_ids",
    "Rsomeip.C67_messages",
    "Rsomeip.C67_names"
   ],
   "note": ""
  },
  {
   "property": "C68",
   "status": "proved",
   "theorems": [
    "Rsomeip.C68_only_if_needed",
    "Rsomeip.C68_uses_registered",
    "Rsomeip.C68_dead",
    "Rsomeip.C68_connects",
    "Rsomeip.C68_stream",
    "Rsomeip.C68_no_endpoint"
   ],
   "note": ""
  },
  {
   "property": "C69",
   "status": "partial",
   "theorems": [
    "Rsomeip.C69_false",
    "Rsomeip.C69_refused",
    "Rsomeip.C69_message_partial",
    "Rsomeip.C69_owner_partial",
    "Rsomeip.C69_last_partial"
   ],
   "note": "False (C69_false, C69_refused: refused for as long as another stub keeps the listener and no message for the interface arrives). The partial theorems give conditions under which it is not refused."
  },
  {
   "property": "C70",
   "status": "partial",
   "theorems": [
    "Rsomeip.C70_false_alarm_closes",
    "Rsomeip.C70_would_block_ignored_partial"
   ],
   "note": "False (C70_false_alarm_closes): WouldBlock of try_read/try_write is treated as closed. Proved for WouldBlock of readable()/writable()."
  },
  {
   "property": "C71",
   "status": "partial",
   "theorems": [
    "Rsomeip.C71_sends_in_order",
    "Rsomeip.C71_oversize_ends_connection",
    "Rsomeip.C71_small_messages_partial"
   ],
   "note": "False (C71_oversize_ends_connection). Proved for messages that fit a datagram."
  },
  {
   "property": "C72",
   "status": "proved",
   "theorems": [
    "Rsomeip.C72_order",
    "Rsomeip.C72_bounded",
    "Rsomeip.C72_goes_on",
    "Rsomeip.C72_waits"
   ],
   "note": ""
  },
  {
   "property": "C73",
   "status": "proved",
   "theorems": [
    "Rsomeip.C73_stub",
    "Rsomeip.C73_proxy",
    "Rsomeip.C73_asked"
   ],
   "note": ""
  },
  {
   "property": "C74",
   "status": "proved",
   "theorems": [
    "Rsomeip.C74_order",
    "Rsomeip.C74_flushed",
    "Rsomeip.C74_all"
   ],
   "note": ""
  },
  {
   "property": "C75",
   "status": "proved",
   "theorems": [
    "Rsomeip.C75_ends",
    "Rsomeip.C75_lasts"
   ],
   "note": "In use means: a live proxy, a stub that opened it, a stub that is sending through it, or a listener that accepted it has the handle."
  },
  {
   "property": "C76",
   "status": "partial",
   "theorems": [
    "Rsomeip.C76_hangs",
    "Rsomeip.C76_requests_partial",
    "Rsomeip.C76_messages_partial",
    "Rsomeip.C76_neighbours"
   ],
   "note": "False (C76_hangs: nothing is done for anybody until the stub is read from or dropped or the connection ends). The partial theorems cover requests and messages for interfaces with another lock."
  },
  {
   "property": "C77",
   "status": "proved",
   "theorems": [
    "Rsomeip.C77_rests",
    "Rsomeip.C77_ends"
   ],
   "note": ""
  },
  {
   "property": "C78",
   "status": "proved",
   "theorems": [
    "Rsomeip.C78_stub",
    "Rsomeip.C78_proxy",
    "Rsomeip.C78_right_stub",
    "Rsomeip.C78_right_proxy"
   ],
   "note": ""
  },
  {
   "property": "C79",
   "status": "partial",
   "theorems": [
    "Rsomeip.C79_false",
    "Rsomeip.C79_closed_partial",
    "Rsomeip.C79_last_partial"
   ],
   "note": "False (C79_false). Proved: only messages of the last packet can be lost, and none if the connection ends because the peer closes it."
  },
  {
   "property": "C80",
   "status": "partial",
   "theorems": [
    "Rsomeip.C80_failure_not_reported",
    "Rsomeip.C80_closed_partial"
   ],
   "note": "False (C80_failure_not_reported). Proved for sockets that were dropped as well."
  },
  {
   "property": "C81",
   "status": "partial",
   "theorems": [
    "Rsomeip.C81_runs_on",
    "Rsomeip.C81_accept_waits",
    "Rsomeip.C81_after_failure_partial"
   ],
   "note": "False (C81_runs_on, C81_accept_waits). Proved: nothing new can be opened, and a later failure of the operating system ends everything."
  },
  {
   "property": "C82",
   "status": "proved",
   "theorems": [
    "Rsomeip.C82_stub",
    "Rsomeip.C82_proxy",
    "Rsomeip.C82_order",
    "Rsomeip.C82_once"
   ],
   "note": ""
  },
  {
   "property": "C83",
   "status": "proved",
   "theorems": [
    "Rsomeip.C83_sent",
    "Rsomeip.C83_unchanged"
   ],
   "note": ""
  },
  {
   "property": "C84",
   "status": "proved",
   "theorems": [
    "Rsomeip.C84_stub",
    "Rsomeip.C84_stub_closed",
    "Rsomeip.C84_proxy",
    "Rsomeip.C84_proxy_closed"
   ],
   "note": ""
  },
  {
   "property": "C85",
   "status": "partial",
   "theorems": [
    "Rsomeip.C85_false",
    "Rsomeip.C85_cut_off",
    "Rsomeip.C85_single_partial"
   ],
   "note": "False (C85_false; C85_cut_off for every continuation). Proved for remotes to which the socket made only one connection."
  },
  {
   "property": "C86",
   "status": "proved",
   "theorems": [
    "Rsomeip.C86_stub",
    "Rsomeip.C86_proxy",
    "Rsomeip.C86_send"
   ],
   "note": ""
  },
  {
   "property": "C87",
   "status": "partial",
   "theorems": [
    "Rsomeip.C87_written",
    "Rsomeip.C87_flushed",
    "Rsomeip.C87_goes_on",
    "Rsomeip.C87_reads",
    "Rsomeip.C87_false",
    "Rsomeip.C87_messages_partial",
    "Rsomeip.C87_given_partial"
   ],
   "note": "The last part is false (C87_false). C87_messages_partial and C87_given_partial prove it for remotes that send messages and reads that end between messages."
  },
  {
   "property": "C88",
   "status": "partial",
   "theorems": [
    "Rsomeip.C88_udp",
    "Rsomeip.C88_tcp_false",
    "Rsomeip.C88_tcp_partial"
   ],
   "note": "Proved for UDP (C88_udp). False for TCP (C88_tcp_false); C88_tcp_partial: no endless run of silent steps if no remote closed its sending side."
  },
  {
   "property": "C89",
   "status": "proved",
   "theorems": [
    "Rsomeip.C89_comes_to_rest",
    "Rsomeip.C89_requests",
    "Rsomeip.C89_calls",
    "Rsomeip.C89_sent",
    "Rsomeip.C89_received",
    "Rsomeip.C89_delivered",
    "Rsomeip.C89_accepted"
   ],
   "note": ""
  },
  {
   "property": "C90",
   "status": "proved",
   "theorems": [
    "Rsomeip.C90_over",
    "Rsomeip.C90_stub",
    "Rsomeip.C90_proxy",
    "Rsomeip.C90_nothing"
   ],
   "note": ""
  },
  {
   "property": "C91",
   "status": "proved",
   "theorems": [
    "Rsomeip.C91_running"
   ],
   "note": ""
  },
  {
   "property": "C92",
   "status": "proved",
   "theorems": [
    "Rsomeip.C92_stub",
    "Rsomeip.C92_stub_closed",
    "Rsomeip.C92_proxy",
    "Rsomeip.C92_proxy_closed"
   ],
   "note": ""
  },
  {
   "property": "C93",
   "status": "partial",
   "theorems": [
    "Rsomeip.C93_false",
    "Rsomeip.C93_possible",
    "Rsomeip.C93_recovers_partial"
   ],
   "note": "False (C93_false, for every continuation in which the stub stays open; C93_possible: one failed accept is enough). C93_recovers_partial: after all stubs are dropped, the next serve asks for a new listener."
  },
  {
   "property": "C94",
   "status": "proved",
   "theorems": [
    "Rsomeip.C94_stub",
    "Rsomeip.C94_proxy"
   ],
   "note": ""
  },
  {
   "property": "C95",
   "status": "proved",
   "theorems": [
    "Rsomeip.C95_stub",
    "Rsomeip.C95_proxy"
   ],
   "note": ""
  },
  {
   "property": "C96",
   "status": "partial",
   "theorems": [
    "Rsomeip.C96_bounded_partial",
    "Rsomeip.C96_false",
    "Rsomeip.C96_tcp_partial"
   ],
   "note": "False (C96_false: for every n, one stub, empty datagrams, nothing left to do, and n running connections). C96_bounded_partial bounds the running connections by proxies + 2 * stubs * remotes."
  },
  {
   "property": "C97",
   "status": "proved",
   "theorems": [
    "Rsomeip.C97_iff",
    "Rsomeip.C97_works",
    "Rsomeip.C97_final",
    "Rsomeip.C97_ends"
   ],
   "note": ""
  },
  {
   "property": "C98",
   "status": "proved",
   "theorems": [
    "Rsomeip.C98_comes_to_rest",
    "Rsomeip.C98_requests",
    "Rsomeip.C98_calls",
    "Rsomeip.C98_written",
    "Rsomeip.C98_received"
   ],
   "note": ""
  },
  {
   "property": "C99",
   "status": "partial",
   "theorems": [
    "Rsomeip.C99_stub_partial",
    "Rsomeip.C99_proxy_partial",
    "Rsomeip.C99_to_stub_partial",
    "Rsomeip.C99_to_proxy_partial",
    "Rsomeip.C99_false"
   ],
   "note": "False as stated (C99_false: a read that ends inside a message). The _partial theorems prove it for reads that end between messages."
  },
  {
   "property": "C100",
   "status": "partial",
   "theorems": [
    "Rsomeip.C100_endpoint_hangs",
    "Rsomeip.C100_listener_hangs",
    "Rsomeip.C100_senders_hang",
    "Rsomeip.C100_partial"
   ],
   "note": "False (C100_endpoint_hangs, C100_listener_hangs, C100_senders_hang, for every continuation in which the call is left alone). C100_partial: everybody goes on who needs the entry of an address with another lock."
  },
  {
   "property": "C101",
   "status": "partial",
   "theorems": [
    "Rsomeip.C101_bounded_partial",
    "Rsomeip.C101_emptied_partial",
    "Rsomeip.C101_keeps",
    "Rsomeip.C101_keeps_shared",
    "Rsomeip.C101_keeps_interface",
    "Rsomeip.C101_false"
   ],
   "note": "False (C101_false for every number of clients; C101_keeps, C101_keeps_shared, C101_keeps_interface: entries stay in every continuation). C101_bounded_partial: one entry for each different address or interface. C101_emptied_partial: nothing is kept by a listener, stub or connection that has ended."
  },
  {
   "property": "C102",
   "status": "proved",
   "theorems": [
    "Rsomeip.C102_send_to",
    "Rsomeip.C102_packets",
    "Rsomeip.C102_sent",
    "Rsomeip.C102_requests",
    "Rsomeip.C102_connect",
    "Rsomeip.C102_recv",
    "Rsomeip.C102_datagram"
   ],
   "note": ""
  },
  {
   "property": "C103",
   "status": "proved",
   "theorems": [
    "Rsomeip.C103_requests",
    "Rsomeip.C103_sent",
    "Rsomeip.C103_stub",
    "Rsomeip.C103_proxy",
    "Rsomeip.C103_packets"
   ],
   "note": ""
  },
  {
   "property": "C104",
   "status": "partial",
   "theorems": [
    "Rsomeip.C104_sent",
    "Rsomeip.C104_requests_partial",
    "Rsomeip.C104_send",
    "Rsomeip.C104_calls_partial",
    "Rsomeip.C104_messages_partial",
    "Rsomeip.C104_deadlock",
    "Rsomeip.C104_for_ever"
   ],
   "note": "False for users who read whenever they are not inside another call (C104_deadlock; C104_for_ever for every continuation). C104_sent needs no assumption on users; C104_requests_partial, C104_calls_partial and C104_messages_partial assume that no queue of a handle stays full for ever."
  },
  {
   "property": "C105",
   "status": "partial",
   "theorems": [
    "Rsomeip.C105_order",
    "Rsomeip.C105_queue",
    "Rsomeip.C105_line",
    "Rsomeip.C105_turns",
    "Rsomeip.C105_overtakes",
    "Rsomeip.C105_bypass",
    "Rsomeip.C105_stalls",
    "Rsomeip.C105_given_up",
    "Rsomeip.C105_due",
    "Rsomeip.C105_returns_partial"
   ],
   "note": "The last part is false (C105_stalls: a call that is first in line and not polled stops all others in every continuation). C105_returns_partial proves it for runs in which calls that can return are polled or dropped and the receiving task goes on; the other parts are proved."
  },
  {
   "property": "C106",
   "status": "partial",
   "theorems": [
    "Rsomeip.C106_exact",
    "Rsomeip.C106_other_bytes",
    "Rsomeip.C106_array_false",
    "Rsomeip.C106_string_false",
    "Rsomeip.C106_again_partial",
    "Rsomeip.C106_no_longer_partial"
   ],
   "note": "False for arrays and strings in length-prefixed members (C106_array_false, C106_string_false). C106_again_partial and C106_no_longer_partial cover types without these; C106_exact: the same bytes, for numbers, byte strings, tuples and Vecs of these."
  },
  {
   "property": "C107",
   "status": "partial",
   "theorems": [
    "Rsomeip.C107_more_partial",
    "Rsomeip.C107_fewer_partial",
    "Rsomeip.C107_truncated_partial",
    "Rsomeip.C107_false"
   ],
   "note": "False for arrays and length-prefixed Vecs (C107_false). C107_more_partial, C107_fewer_partial and C107_truncated_partial cover all types without arrays, Vecs and byte strings."
  },
  {
   "property": "C108",
   "status": "proved",
   "theorems": [
    "Rsomeip.C108_once",
    "Rsomeip.C108_repeated"
   ],
   "note": ""
  },
  {
   "property": "C109",
   "status": "proved",
   "theorems": [
    "Rsomeip.C109_memory",
    "Rsomeip.C109_elements",
    "Rsomeip.C109_one_byte"
   ],
   "note": ""
  },
  {
   "property": "C110",
   "status": "partial",
   "theorems": [
    "Rsomeip.C110_requests",
    "Rsomeip.C110_answer",
    "Rsomeip.C110_hear",
    "Rsomeip.C110_served",
    "Rsomeip.C110_asker_partial",
    "Rsomeip.C110_answerer_partial",
    "Rsomeip.C110_faithful_partial",
    "Rsomeip.C110_goes_on",
    "Rsomeip.C110_loss_stalls",
    "Rsomeip.C110_out_of_step",
    "Rsomeip.C110_stranger_stops_answerer",
    "Rsomeip.C110_stranger_stops_asker",
    "Rsomeip.C110_long_request_cut"
   ],
   "note": "False if the network loses or repeats datagrams or brings in others (C110_loss_stalls, C110_out_of_step, C110_stranger_*, C110_long_request_cut). C110_served and C110_goes_on cover a faultless network; the _partial theorems hold as long as nobody else sends."
  },
  {
   "property": "C111",
   "status": "partial",
   "theorems": [
    "Rsomeip.C111_apart_partial",
    "Rsomeip.C111_complete_partial",
    "Rsomeip.C111_join_mixes",
    "Rsomeip.C111_same_identity"
   ],
   "note": "False for receivers that join whatever arrives (C111_join_mixes) and for messages with the same identity (C111_same_identity). The _partial theorems cover receivers that keep one open message for each identity and messages with different ones."
  },
  {
   "property": "C112",
   "status": "partial",
   "theorems": [
    "Rsomeip.C112_cut",
    "Rsomeip.C112_whole_partial",
    "Rsomeip.C112_false",
    "Rsomeip.C112_sent"
   ],
   "note": "False (C112_false; C112_cut says for every datagram made of messages what is returned). C112_whole_partial covers datagrams of up to 1400 bytes; C112_sent: endpoints send no longer ones."
  },
  {
   "property": "C113",
   "status": "partial",
   "theorems": [
    "Rsomeip.C113_unmarked",
    "Rsomeip.C113_marked_partial"
   ],
   "note": "False (C113_unmarked: no function sets the flag). C113_marked_partial covers callers that set it before splitting."
  },
  {
   "property": "C114",
   "status": "partial",
   "theorems": [
    "Rsomeip.C114_socket_partial",
    "Rsomeip.C114_false"
   ],
   "note": "False for proxies (C114_false). C114_socket_partial proves it for connections of the socket."
  },
  {
   "property": "C115",
   "status": "proved",
   "theorems": [
    "Rsomeip.C115_same_connection",
    "Rsomeip.C115_none_opened",
    "Rsomeip.C115_goes_through",
    "Rsomeip.C115_reuses"
   ],
   "note": ""
  },
  {
   "property": "C116",
   "status": "partial",
   "theorems": [
    "Rsomeip.C116_present_partial",
    "Rsomeip.C116_soon",
    "Rsomeip.C116_false",
    "Rsomeip.C116_first"
   ],
   "note": "False (C116_false). C116_present_partial proves it for points at which the receiving task waits, C116_soon for the next such point; C116_first needs neither."
  },
  {
   "property": "C117",
   "status": "partial",
   "theorems": [
    "Rsomeip.C117_refused_partial",
    "Rsomeip.C117_false",
    "Rsomeip.C117_any_message",
    "Rsomeip.C117_invalid"
   ],
   "note": "False (C117_false, C117_any_message, C117_invalid). C117_refused_partial: send_to to an address to which there has never been a connection fails."
  },
  {
   "property": "C118",
   "status": "proved",
   "theorems": [
    "Rsomeip.C118_order",
    "Rsomeip.C118_newest",
    "Rsomeip.C118_accept"
   ],
   "note": ""
  },
  {
   "property": "C119",
   "status": "proved",
   "theorems": [
    "Rsomeip.C119_recv",
    "Rsomeip.C119_oldest"
   ],
   "note": ""
  },
  {
   "property": "C120",
   "status": "proved",
   "theorems": [
    "Rsomeip.C120_exists",
    "Rsomeip.C120_serve",
    "Rsomeip.C120_proxy",
    "Rsomeip.C120_first",
    "Rsomeip.C120_stuck"
   ],
   "note": ""
  },
  {
   "property": "C121",
   "status": "partial",
   "theorems": [
    "Rsomeip.C121_streams",
    "Rsomeip.C121_bytes",
    "Rsomeip.C121_sent_partial",
    "Rsomeip.C121_order_partial",
    "Rsomeip.C121_all_partial",
    "Rsomeip.C121_false"
   ],
   "note": "The part about messages is false (C121_false: a read that ends inside a message). C121_streams and C121_bytes hold for all histories; the _partial theorems cover reads that end between messages."
  },
  {
   "property": "C122",
   "status": "proved",
   "theorems": [
    "Rsomeip.C122_types",
    "Rsomeip.C122_len",
    "Rsomeip.C122_messages",
    "Rsomeip.C122_poll",
    "Rsomeip.C122_segment",
    "Rsomeip.C122_either",
    "Rsomeip.C122_pieces",
    "Rsomeip.C122_round_trip"
   ],
   "note": ""
  },
  {
   "property": "C123",
   "status": "proved",
   "theorems": [
    "Rsomeip.C123_types",
    "Rsomeip.C123_len",
    "Rsomeip.C123_messages",
    "Rsomeip.C123_process",
    "Rsomeip.C123_written",
    "Rsomeip.C123_transfer"
   ],
   "note": ""
  },
  {
   "property": "C124",
   "status": "proved",
   "theorems": [
    "Rsomeip.C124_unsent",
    "Rsomeip.C124_cancelled",
    "Rsomeip.C124_once",
    "Rsomeip.C124_calls",
    "Rsomeip.C124_released"
   ],
   "note": ""
  },
  {
   "property": "C125",
   "status": "partial",
   "theorems": [
    "Rsomeip.C125_no_connect",
    "Rsomeip.C125_no_proxy",
    "Rsomeip.C125_no_listen",
    "Rsomeip.C125_connect_partial",
    "Rsomeip.C125_listen_partial",
    "Rsomeip.C125_one_per_remote",
    "Rsomeip.C125_sockets"
   ],
   "note": "The first part is false on Linux (C125_no_connect, C125_no_proxy, C125_no_listen). The _partial theorems prove it for times at which no listener runs; C125_one_per_remote and C125_sockets hold for all histories."
  },
  {
   "property": "C126",
   "status": "partial",
   "theorems": [
    "Rsomeip.C126_requests_partial",
    "Rsomeip.C126_calls_partial",
    "Rsomeip.C126_sent",
    "Rsomeip.C126_datagrams",
    "Rsomeip.C126_received_partial",
    "Rsomeip.C126_accepted",
    "Rsomeip.C126_deadlock"
   ],
   "note": "False for users who read whenever they are not inside another call (C126_deadlock). C126_sent, C126_datagrams and C126_accepted need no assumption on users; C126_requests_partial, C126_calls_partial and C126_received_partial assume that no queue of a handle stays full for ever."
  },
  {
   "property": "C127",
   "status": "partial",
   "theorems": [
    "Rsomeip.C127_requests_partial",
    "Rsomeip.C127_calls_partial",
    "Rsomeip.C127_sent",
    "Rsomeip.C127_received_partial",
    "Rsomeip.C127_deadlock"
   ],
   "note": "False for users who read whenever they are not inside another call (C127_deadlock). C127_sent needs no assumption on users; C127_requests_partial, C127_calls_partial and C127_received_partial assume that no queue of a handle stays full for ever."
  },
  {
   "property": "C128",
   "status": "partial",
   "theorems": [
    "Rsomeip.C128_bytes_partial",
    "Rsomeip.C128_messages_partial",
    "Rsomeip.C128_false"
   ],
   "note": "False if a read ends inside a message (C128_false: a fair run in which a message is never handed out nor dropped). C128_bytes_partial needs nothing about reads, C128_messages_partial assumes that every read ends between messages and that messages can be expressed in the format; both assume that no queue of a handle stays full for ever."
  },
  {
   "property": "C129",
   "status": "proved",
   "theorems": [
    "Rsomeip.C129_udp_goes",
    "Rsomeip.C129_udp",
    "Rsomeip.C129_udp_call",
    "Rsomeip.C129_tcp_goes",
    "Rsomeip.C129_tcp",
    "Rsomeip.C129_net_goes",
    "Rsomeip.C129_net"
   ],
   "note": "C129_udp, C129_tcp and C129_net say what is done; the _goes theorems that the way on is fair. C129_udp_call shows that the assumption is needed."
  },
  {
   "property": "C130",
   "status": "partial",
   "theorems": [
    "Rsomeip.C130_stays",
    "Rsomeip.C130_spins",
    "Rsomeip.C130_many",
    "Rsomeip.C130_false",
    "Rsomeip.C130_error_partial"
   ],
   "note": "False (C130_false: a fair run in which the connection of a client that has left is read for ever; C130_stays: such connections do not end; C130_spins: their tasks read nothing again and again; C130_many: there can be any number of them). C130_error_partial: a connection on which an error is reported has ended."
  },
  {
   "property": "C131",
   "status": "proved",
   "theorems": [
    "Rsomeip.C131_ends",
    "Rsomeip.C131_udp",
    "Rsomeip.C131_tcp"
   ],
   "note": ""
  },
  {
   "property": "C132",
   "status": "proved",
   "theorems": [
    "Rsomeip.C132_datagram",
    "Rsomeip.C132_delivered"
   ],
   "note": ""
  },
  {
   "property": "C133",
   "status": "proved",
   "theorems": [
    "Rsomeip.C133_stub",
    "Rsomeip.C133_proxy",
    "Rsomeip.C133_request",
    "Rsomeip.C133_reply"
   ],
   "note": ""
  },
  {
   "property": "C134",
   "status": "partial",
   "theorems": [
    "Rsomeip.C134_stub_partial",
    "Rsomeip.C134_proxy_partial",
    "Rsomeip.C134_request_partial",
    "Rsomeip.C134_reply_partial"
   ],
   "note": "False for users who read whenever they are not inside another call (C104_deadlock, C127_deadlock), and if a read ends inside a message (C128_false). C134_stub_partial and C134_proxy_partial assume that no queue of a handle stays full for ever; C134_request_partial and C134_reply_partial in addition that every read ends between messages and that messages can be expressed in the format."
  },
  {
   "property": "C135",
   "status": "proved",
   "theorems": [
    "Rsomeip.C135_requests",
    "Rsomeip.C135_messages",
    "Rsomeip.C135_returns",
    "Rsomeip.C135_free",
    "Rsomeip.C135_request",
    "Rsomeip.C135_reply",
    "Rsomeip.C135_bytes"
   ],
   "note": ""
  },
  {
   "property": "C136",
   "status": "partial",
   "theorems": [
    "Rsomeip.C136_answer",
    "Rsomeip.C136_reaches",
    "Rsomeip.C136_tcp_partial"
   ],
   "note": "C136_answer (any socket) and C136_reaches (UDP) are full. Over TCP false if a read of the client ends inside a message (C128_false); C136_tcp_partial assumes that every read on this connection ends between messages and that the messages sent on it can be expressed in the format."
  },
  {
   "property": "C137",
   "status": "partial",
   "theorems": [
    "Rsomeip.C137_round_trip",
    "Rsomeip.C137_ask",
    "Rsomeip.C137_tcp_partial",
    "Rsomeip.C137_tcp_ask_partial"
   ],
   "note": "C137_round_trip and C137_ask (UDP) are full. Over TCP false if a read ends inside a message (C128_false); C137_tcp_partial and C137_tcp_ask_partial assume that every read on the connection, at both ends, ends between messages and that the messages sent on it can be expressed in the format."
  },
  {
   "property": "C138",
   "status": "partial",
   "theorems": [
    "Rsomeip.C138_requests_partial",
    "Rsomeip.C138_messages_partial",
    "Rsomeip.C138_calls_partial",
    "Rsomeip.C138_answer_partial",
    "Rsomeip.C138_blocked",
    "Rsomeip.C138_false"
   ],
   "note": "The part about serve and proxy is false (C138_blocked: while a call of proxy waits for the socket no request is answered, whatever else happens; C138_false: a run, fair to all tasks, in which a call of serve never returns because of a proxy whose remote does not answer). The _partial theorems prove the rest; C138_requests_partial and C138_messages_partial assume that no queue of a handle stays full for ever. That what is accepted by send is sent needs nothing of the endpoint task either: C104_sent."
  },
  {
   "property": "C139",
   "status": "proved",
   "theorems": [
    "Rsomeip.C139_sent",
    "Rsomeip.C139_once",
    "Rsomeip.C139_request",
    "Rsomeip.C139_reply"
   ],
   "note": ""
  },
  {
   "property": "C140",
   "status": "partial",
   "theorems": [
    "Rsomeip.C140_fresh_partial",
    "Rsomeip.C140_false"
   ],
   "note": "False in general (C140_false): the proxy of a program that was started again returns the answer to a question of its former life. C140_fresh_partial assumes that no datagram arrives that was sent before the program was started."
  },
  {
   "property": "C141",
   "status": "proved",
   "theorems": [
    "Rsomeip.C141_send",
    "Rsomeip.C141_proxy",
    "Rsomeip.C141_stub"
   ],
   "note": ""
  },
  {
   "property": "C142",
   "status": "proved",
   "theorems": [
    "Rsomeip.C142_connections",
    "Rsomeip.C142_proxy",
    "Rsomeip.C142_stub"
   ],
   "note": ""
  },
  {
   "property": "C143",
   "status": "proved",
   "theorems": [
    "Rsomeip.C143_streams",
    "Rsomeip.C143_bytes",
    "Rsomeip.C143_fresh"
   ],
   "note": ""
  },
  {
   "property": "C144",
   "status": "partial",
   "theorems": [
    "Rsomeip.C144_sent_partial",
    "Rsomeip.C144_fresh_partial",
    "Rsomeip.C144_false"
   ],
   "note": "False in general (C144_false): a read that ends inside a message lets a message be returned that was never sent in any life. C144_sent_partial and C144_fresh_partial assume that reads end between messages."
  },
  {
   "property": "C145",
   "status": "partial",
   "theorems": [
    "Rsomeip.C145_once_partial",
    "Rsomeip.C145_false"
   ],
   "note": "False in general (C145_false): a read that ends inside a message lets a message be returned that was never accepted. C145_once_partial assumes that reads end between messages."
  },
  {
   "property": "C146",
   "status": "partial",
   "theorems": [
    "Rsomeip.C146_bytes_partial",
    "Rsomeip.C146_request_partial",
    "Rsomeip.C146_reply_partial",
    "Rsomeip.C146_false"
   ],
   "note": "False if a read ends inside a message (C146_false: a fair run after crashes in which a message is never handed out nor dropped). C146_bytes_partial needs nothing about reads; C146_request_partial and C146_reply_partial assume that every read on the connection ends between messages and that messages can be expressed in the format; all assume that no queue of a handle stays full for ever."
  },
  {
   "property": "C147",
   "status": "partial",
   "theorems": [
    "Rsomeip.C147_send_partial",
    "Rsomeip.C147_recv_partial",
    "Rsomeip.C147_false"
   ],
   "note": "False if the remote closes the connection in order (C147_false: a fair run, all users reading, in which recv never reports the end). C147_send_partial and C147_recv_partial assume that the operating system has reported an error."
  },
  {
   "property": "C148",
   "status": "proved",
   "theorems": [
    "Rsomeip.C148_round_trip",
    "Rsomeip.C148_ask"
   ],
   "note": ""
  },
  {
   "property": "C149",
   "status": "partial",
   "theorems": [
    "Rsomeip.C149_partial",
    "Rsomeip.C149_ask_partial"
   ],
   "note": "False if a read ends inside a message (C146_false: after crashes the question is never handed to the stub). C149_partial and C149_ask_partial assume that every read on the connection, at both ends, ends between messages and that the messages sent on it can be expressed in the format."
  }
 ]
}