{
 "claims": [
  {
   "property": "C01",
   "status": "proved",
   "theorems": [
    "Verif.S5.c01_connect_decodes",
    "Verif.S5.c01_not_before",
    "Verif.S5.c01_port_bytes"
   ],
   "note": "for every stream and segmentation; names of 1..254 bytes without NUL"
  },
  {
   "property": "C02",
   "status": "proved",
   "theorems": [
    "Verif.S5.c02_accept_sound",
    "Verif.S5.c02_reject_version_command",
    "Verif.S5.c02_reject_address_type",
    "Verif.S5.c02_never_aborts"
   ],
   "note": ""
  },
  {
   "property": "C03",
   "status": "proved",
   "theorems": [
    "Verif.S5.c03_greeting",
    "Verif.S5.c03_not_before",
    "Verif.S5.c03_reply"
   ],
   "note": ""
  },
  {
   "property": "C04",
   "status": "partial",
   "theorems": [
    "Verif.S5.c04_request_store_partial",
    "Verif.S5.c04_greeting_store_partial",
    "Verif.S5.c04_name_read_partial",
    "Verif.S5.c04_name_255",
    "Verif.S5.c04_counterexample",
    "Verif.S5.c04_name_counterexample"
   ],
   "note": "False of the code: zero length bytes and 255-byte names leave the arrays. The partial theorems characterise exactly which streams do."
  },
  {
   "property": "C05",
   "status": "partial",
   "theorems": [
    "Verif.S5.c05_reply_only_when_connected_partial",
    "Verif.S5.c05_reply_when_connected",
    "Verif.S5.c05_reply_bytes_partial",
    "Verif.S5.c05_reply_right_iff_partial",
    "Verif.S5.c05_address_counterexample",
    "Verif.S5.c05_reply_delivery"
   ],
   "note": "The timing half holds; the address half is false of the code (truncated and byte-swapped)."
  },
  {
   "property": "C06",
   "status": "proved",
   "theorems": [
    "Verif.Ip4.c06_text_round_trip",
    "Verif.Ip4.c06_text_fits"
   ],
   "note": "inet_addr is modelled for the four-component form"
  },
  {
   "property": "C07",
   "status": "partial",
   "theorems": [
    "Verif.Tunnel.c07_relay_exact_partial",
    "Verif.Tunnel.c07_relay_prefix_partial",
    "Verif.TlsRelay.c102_order_partial",
    "Verif.TlsRelay.c102_echo_counterexample"
   ],
   "note": "All schedules, partial reads/writes, errors and timeouts, with and without the exchange of callbacks by the TLS layer. False of the code in one case: after the SOCKS5 reply (or the header) had to wait, uploaded bytes can be sent back to the client."
  },
  {
   "property": "C08",
   "status": "partial",
   "theorems": [
    "Verif.Tunnel.c08_armed_partial",
    "Verif.Tunnel.c08_delivery_partial",
    "Verif.TlsRelay.c102_progress_partial",
    "Verif.TlsRelay.c102_no_stall_partial",
    "Verif.TlsRelay.c102_upload_starves_counterexample",
    "Verif.TlsRelay.c102_wakeup_lost_counterexample"
   ],
   "note": "Holds for the relay handlers on results of their calls. With the TLS layer it holds while nothing waits to be written to the TLS connection; otherwise one direction can stand still although its data could move, even for ever."
  },
  {
   "property": "C09",
   "status": "partial",
   "theorems": [
    "Verif.Tunnel.c09_flush_before_close_partial",
    "Verif.TlsRelay.c102_flush_partial",
    "Verif.TlsRelay.c102_echo_counterexample"
   ],
   "note": "All schedules, with and without the exchange of callbacks by the TLS layer; fails in the case of C07."
  },
  {
   "property": "C10",
   "status": "partial",
   "theorems": [
    "Verif.Tunnel.c10_other_direction_counterexample",
    "Verif.Tunnel.c10_loss_bounded_partial"
   ],
   "note": "False of the code: up to one relay buffer of the other direction is discarded."
  },
  {
   "property": "C11",
   "status": "partial",
   "theorems": [
    "Verif.Auth.c11_subsequence_partial",
    "Verif.Auth.c11_infix_partial",
    "Verif.Auth.c11_history_counterexample",
    "Verif.Auth.c11_fresh_counterexample",
    "Verif.Auth.c11_high_bytes_counterexample"
   ],
   "note": "False of the code in three ways; the partial theorems bound what can be admitted, for every history."
  },
  {
   "property": "C12",
   "status": "partial",
   "theorems": [
    "Verif.Auth.c12_clean_history_partial",
    "Verif.Auth.c12_history_counterexample"
   ],
   "note": "False of the code after refused attempts; holds after any clean history."
  },
  {
   "property": "C13",
   "status": "proved",
   "theorems": [
    "Verif.Auth.c13_needs_header",
    "Verif.Auth.c13_wrong_magic",
    "Verif.Auth.c13_incomplete",
    "Verif.Auth.c13_ended",
    "Verif.Auth.c13_segmentation"
   ],
   "note": ""
  },
  {
   "property": "C14",
   "status": "partial",
   "theorems": [
    "Verif.Auth.c14_terminates_partial",
    "Verif.Auth.c14_single_key_partial",
    "Verif.Auth.c14_fresh_heads_partial",
    "Verif.Config.c14_file_partial",
    "Verif.Auth.c14_counterexample"
   ],
   "note": "False of the code (NULL dereference); termination and stack bounds hold for every key file."
  },
  {
   "property": "C15",
   "status": "proved",
   "theorems": [
    "Verif.Mem.c15_fresh_block",
    "Verif.Mem.c15_live_disjoint",
    "Verif.Mem.c15_headers_apart",
    "Verif.Mem.c15_aligned",
    "Verif.Mem.c15_contents"
   ],
   "note": "malloc is assumed to return disjoint areas; the queues are sequences (C18)."
  },
  {
   "property": "C16",
   "status": "partial",
   "theorems": [
    "Verif.Mem.c16_outcome_partial",
    "Verif.Mem.c16_starved_counterexample",
    "Verif.Mem.c16_corrupt_counterexample",
    "Verif.Mem.c16_foreign_free_counterexample"
   ],
   "note": "False of the code: only the smallest class is checked for emptiness."
  },
  {
   "property": "C17",
   "status": "proved",
   "theorems": [
    "Verif.Mem.c17_conserved",
    "Verif.Mem.c17_reused",
    "Verif.Mem.c17_double_free"
   ],
   "note": ""
  },
  {
   "property": "C18",
   "status": "proved",
   "theorems": [
    "Verif.Queue.c18_refines",
    "Verif.Queue.c18_from_scratch",
    "Verif.Queue.c18_observers",
    "Verif.Queue.c18_neighbours",
    "Verif.Queue.c18_remove_twice"
   ],
   "note": ""
  },
  {
   "property": "C19",
   "status": "proved",
   "theorems": [
    "Verif.Net.c19_chain_order",
    "Verif.Net.c19_done_iff_all_sent",
    "Verif.Net.c19_single_call",
    "Verif.Net.c19_progress",
    "Verif.Net.c19_eintr_invisible",
    "Verif.Net.c19_receive"
   ],
   "note": ""
  },
  {
   "property": "C20",
   "status": "proved",
   "theorems": [
    "Verif.Meta.c20_append",
    "Verif.Meta.c20_run",
    "Verif.Meta.c20_run_steps",
    "Verif.Meta.c20_run_fails",
    "Verif.Meta.c20_dump"
   ],
   "note": "Lengths passed by callers are the lengths of the data."
  },
  {
   "property": "C21",
   "status": "proved",
   "theorems": [
    "Verif.Timer.c21_sound",
    "Verif.Timer.c21_times"
   ],
   "note": "For at most 1536 timers, the size of the heap."
  },
  {
   "property": "C22",
   "status": "partial",
   "theorems": [
    "Verif.Timer.c22_wait_partial",
    "Verif.Timer.c22_all_due_partial",
    "Verif.Timer.c22_late_counterexample"
   ],
   "note": "False of the code after cancellations; holds when armed timers are not cancelled."
  },
  {
   "property": "C23",
   "status": "partial",
   "theorems": [
    "Verif.BHeap.c23_min_partial",
    "Verif.BHeap.c23_deletion_exact",
    "Verif.BHeap.c23_counterexample"
   ],
   "note": "False of the code; exact characterisation of order-preserving deletions."
  },
  {
   "property": "C24",
   "status": "proved",
   "theorems": [
    "Verif.BHeap.c24_contents",
    "Verif.BHeap.c24_full",
    "Verif.BHeap.c24_frame",
    "Verif.BHeap.c24_refused"
   ],
   "note": ""
  },
  {
   "property": "C25",
   "status": "proved",
   "theorems": [
    "Verif.EzHash.c25_lookup",
    "Verif.EzHash.c25_refines",
    "Verif.EzHash.c25_collisions",
    "Verif.EzHash.c25_delete",
    "Verif.EzHash.c25_no_abort",
    "Verif.EzHash.c25_empty_key_counterexample"
   ],
   "note": "Histories that insert the empty key abort the program; allocation failures leave the map unchanged."
  },
  {
   "property": "C26",
   "status": "proved",
   "theorems": [
    "Verif.Dns.c26_question",
    "Verif.Dns.c26_no_overflow",
    "Verif.Dns.c26_empty_label_counterexample"
   ],
   "note": "For host names with labels of 1..63 bytes; other byte strings are not checked by the code."
  },
  {
   "property": "C27",
   "status": "partial",
   "theorems": [
    "Verif.Dns.c27_first_a_partial",
    "Verif.Dns.c27_empty_data_counterexample",
    "Verif.Dns.c27_plain_owner_counterexample",
    "Verif.Dns.c27_additional_section_counterexample",
    "Verif.Dns.c27_counts"
   ],
   "note": "Holds for records with non-empty data; false with an empty-data record before the A record."
  },
  {
   "property": "C28",
   "status": "partial",
   "theorems": [
    "Verif.Dns.c28_inside_partial",
    "Verif.Dns.c28_identifier_ignored",
    "Verif.Dns.c28_unrelated_response_counterexample",
    "Verif.Dns.c28_stale_bytes_counterexample",
    "Verif.Dns.c28_over_read_counterexample",
    "Verif.Dns.c28_short"
   ],
   "note": "False of the code; only the position of the address inside the response is guaranteed, for records of at least four data bytes."
  },
  {
   "property": "C29",
   "status": "partial",
   "theorems": [
    "Verif.Dns.c29_exact_partial",
    "Verif.Dns.c29_stale_counterexample",
    "Verif.Dns.c29_stale_forever_counterexample",
    "Verif.Dns.c29_early_removal_counterexample",
    "Verif.Dns.c29_wrap_counterexample",
    "Verif.Dns.c29_ttl_partial"
   ],
   "note": "False of the code; exact characterisation of when an entry is answered."
  },
  {
   "property": "C30",
   "status": "proved",
   "theorems": [
    "Verif.Dns.c30_right_name",
    "Verif.Dns.c30_empty_name_abort_counterexample"
   ],
   "note": ""
  },
  {
   "property": "C31",
   "status": "partial",
   "theorems": [
    "Verif.Http.c31_one_piece_partial",
    "Verif.Http.c31_empty_value_counterexample",
    "Verif.Http.c31_sixteen_fields_counterexample"
   ],
   "note": "Holds for origin-form heads of at most fifteen fields with non-empty values that fit the buffer and arrive in one piece; false for empty values and for a sixteenth field."
  },
  {
   "property": "C32",
   "status": "partial",
   "theorems": [
    "Verif.Http.c32_line_boundary_partial",
    "Verif.Http.c32_payload_partial",
    "Verif.Http.c32_rest_never_read_counterexample",
    "Verif.Http.c32_hang_counterexample",
    "Verif.Http.c32_hang_header_counterexample",
    "Verif.Http.c32_incomplete_accepted_counterexample",
    "Verif.Http.c32_full_line_abort_counterexample",
    "Verif.Http.c32_cut_counterexample",
    "Verif.Http.c32_cut_iff"
   ],
   "note": "False of the code: a cut inside the request line or the fields makes the parser spin or accept an incomplete head. Holds for a cut between request line and fields, and for the payload. For a valid head of at most 4096 bytes in two pieces this is exact: it is understood if and only if the cut is right behind the request line."
  },
  {
   "property": "C33",
   "status": "partial",
   "theorems": [
    "Verif.Web.c33_refused_partial",
    "Verif.Web.c33_served",
    "Verif.Web.c33_path",
    "Verif.Web.c33_root_prefix",
    "Verif.Web.c33_long_target_counterexample",
    "Verif.Web.c33_trailing_counterexample"
   ],
   "note": "Refusal holds for targets below 1024 bytes with a non-final parent component; longer targets escape the root, a final parent component passes."
  },
  {
   "property": "C34",
   "status": "partial",
   "theorems": [
    "Verif.Web.c34_prefix",
    "Verif.Web.c34_complete_partial",
    "Verif.Web.c34_whole_writes_partial",
    "Verif.Web.c34_at_most_one_buffer_partial",
    "Verif.Web.c34_short_write_counterexample",
    "Verif.Web.c34_large_file_counterexample",
    "Verif.Web.c34_open_failure_counterexample"
   ],
   "note": "Never wrong bytes; complete when the socket takes whole writes; a short write of the last chunk ends the response early. Assumes that a wait is followed by a further call, which on connections without TLS is not the case (C103)."
  },
  {
   "property": "C35",
   "status": "partial",
   "theorems": [
    "Verif.Web.c35_type_partial",
    "Verif.Web.c35_no_dot_counterexample"
   ],
   "note": "Holds for every path containing a dot; a path without any dot crashes."
  },
  {
   "property": "C36",
   "status": "partial",
   "theorems": [
    "Verif.Web.c36_exact",
    "Verif.Web.c36_iff",
    "Verif.Web.c36_long_path_counterexample",
    "Verif.Web.c36_method_prefix_counterexample",
    "Verif.Http.c36_method_iff"
   ],
   "note": "Exact for registered paths of at most 31 bytes; methods are matched by prefix."
  },
  {
   "property": "C37",
   "status": "proved",
   "theorems": [
    "Verif.Event.c37_not_dispatched",
    "Verif.Event.c37_table_bound"
   ],
   "note": "For every bookkeeping state and every batch."
  },
  {
   "property": "C38",
   "status": "partial",
   "theorems": [
    "Verif.Event.c38_delivered_partial",
    "Verif.Event.c38_lost_counterexample",
    "Verif.Event.c38_wrong_handler_counterexample",
    "Verif.Event.c38_error_only_counterexample"
   ],
   "note": "False of the code: stale entry indices; holds when no unreported live event has an index in the range of the batch."
  },
  {
   "property": "C39",
   "status": "proved",
   "theorems": [
    "Verif.Event.c39_step",
    "Verif.Event.c39_interest",
    "Verif.Event.c39_select"
   ],
   "note": "epoll and select variants."
  },
  {
   "property": "C40",
   "status": "partial",
   "theorems": [
    "Verif.Ssl.c40_restored_partial",
    "Verif.Ssl.c40_restored_one_partial",
    "Verif.Ssl.c40_wakeup_partial",
    "Verif.Ssl.c40_new_interest",
    "Verif.Ssl.c40_handshake",
    "Verif.Ssl.c40_handshake_next_partial",
    "Verif.Ssl.c40_stale_write_callback_counterexample",
    "Verif.Ssl.c40_stale_read_callback_counterexample",
    "Verif.Ssl.c40_stale_interest_counterexample",
    "Verif.Ssl.c40_null_call_counterexample",
    "Verif.Ssl.c40_endless_counterexample",
    "Verif.Ssl.c40_handshake_loop_counterexample",
    "Verif.Ssl.c40_handshake_interest_counterexample"
   ],
   "note": "False of the code in seven ways; holds for applications that install both callbacks and do not change them while an operation waits."
  },
  {
   "property": "C41",
   "status": "partial",
   "theorems": [
    "Verif.Process.c41_table",
    "Verif.Process.c41_replaced_partial",
    "Verif.Process.c41_no_start",
    "Verif.Process.c41_stop_iff",
    "Verif.Process.c41_signalled_partial",
    "Verif.Process.c41_shutdown_stuck_counterexample",
    "Verif.Process.c41_fork_failed_counterexample"
   ],
   "note": "Table invariant for all histories; replacement when forking succeeds. False of the code: an exited first worker blocks shutdown, a failed fork is not retried."
  },
  {
   "property": "C42",
   "status": "partial",
   "theorems": [
    "Verif.Ring.c42_step_partial",
    "Verif.Ring.c42_run_partial",
    "Verif.Ring.c42_history_partial",
    "Verif.Ring.c42_unsafe",
    "Verif.Ring.c42_second_round_counterexample",
    "Verif.Ring.c42_invented_counterexample",
    "Verif.Ring.c42_pull_counterexample"
   ],
   "note": "FIFO for every history without the three wrong cases, which c42_unsafe characterises exactly."
  },
  {
   "property": "C43",
   "status": "partial",
   "theorems": [
    "Verif.Bst.c43_refines_partial",
    "Verif.Bst.c43_insert_find_partial",
    "Verif.Bst.c43_delete_iff",
    "Verif.Bst.c43_last_counterexample",
    "Verif.Bst.c43_minus_one_counterexample",
    "Verif.Bst.c43_stale_counterexample",
    "Verif.Bst.c43_stack_counterexample"
   ],
   "note": "Correct as a bag as long as no call fails; insertion and lookup of up to 8192 numbers never fail. False of the code: deleting a leaf crashes and three more faults."
  },
  {
   "property": "C44",
   "status": "partial",
   "theorems": [
    "Verif.Log.c44_exact_partial",
    "Verif.Log.c44_inside_iff",
    "Verif.Log.c44_long_line_counterexample",
    "Verif.Log.c44_long_prefix_counterexample",
    "Verif.Log.c44_nul_counterexample"
   ],
   "note": "False of the code for long lines; c44_inside_iff is the exact condition."
  },
  {
   "property": "C45",
   "status": "partial",
   "theorems": [
    "Verif.Str.c45_first_partial",
    "Verif.Str.c45_abort_counterexample",
    "Verif.Str.c45_beyond_counterexample",
    "Verif.Str.c45_read_counterexample"
   ],
   "note": "False of the code in three ways."
  },
  {
   "property": "C46",
   "status": "partial",
   "theorems": [
    "Verif.Peek.c46_decision",
    "Verif.Peek.c46_keeps",
    "Verif.Peek.c46_secret_counterexample"
   ],
   "note": "Decision and non-consumption hold; the secret header itself is taken for TLS."
  },
  {
   "property": "C47",
   "status": "partial",
   "theorems": [
    "Verif.Session.c47_no_fault_partial",
    "Verif.Session.c47_released_partial",
    "Verif.Session.c47_closed_once_partial",
    "Verif.Session.c47_failure",
    "Verif.Session.c47_goes_on",
    "Verif.Session.c47_waits",
    "Verif.Session.c47_early_data",
    "Verif.Session.c47_relay",
    "Verif.Session.c47_faults",
    "Verif.Session.c47_dns_reset_counterexample",
    "Verif.Session.c47_dns_setup_counterexample",
    "Verif.Session.c47_dns_leak_counterexample",
    "Verif.Session.c47_handshake_timeout_counterexample",
    "Verif.Session.c47_double_close_counterexample"
   ],
   "note": "All schedules and all results of system calls, server and client, except three situations in which the code is shown to fail."
  },
  {
   "property": "C48",
   "status": "partial",
   "theorems": [
    "Verif.TunnelC.c48_order_partial",
    "Verif.TunnelC.c48_delivery_partial",
    "Verif.TunnelC.c48_bounded",
    "Verif.TunnelC.c48_full",
    "Verif.TunnelC.c48_half_close_counterexample"
   ],
   "note": "Order, completeness once relaying and the cache bound hold for all schedules, except for what the TLS layer adds (C102); a half-closing local program loses its cached data."
  },
  {
   "property": "C49",
   "status": "proved",
   "theorems": [
    "Verif.CJson.c49_decode",
    "Verif.CJson.c49_lone_low",
    "Verif.CJson.c49_lone_high",
    "Verif.CJson.c49_bad_hex_counterexample"
   ],
   "note": "All literals and all code points. The last theorem records that escapes with bad digits, which the property does not mention, are read as the character 0."
  },
  {
   "property": "C50",
   "status": "partial",
   "theorems": [
    "Verif.CJson.c50_inside",
    "Verif.CJson.c50_inside_partial",
    "Verif.CJson.c50_depth",
    "Verif.CJson.c50_trailing_comma_counterexample"
   ],
   "note": "Holds for C strings, the only use in the program, and for buffers with a length unless they end with a comma."
  },
  {
   "property": "C51",
   "status": "proved",
   "theorems": [
    "Verif.Seq.c51_arr",
    "Verif.Seq.c51_list",
    "Verif.Seq.c51_free_arr"
   ],
   "note": "All insertion sequences."
  },
  {
   "property": "C52",
   "status": "partial",
   "theorems": [
    "Verif.Auth.c52_suffix_partial",
    "Verif.Auth.c52_aligned_partial",
    "Verif.Auth.c52_pipelined_counterexample"
   ],
   "note": "False of the code: coalesced bytes are discarded with the header."
  },
  {
   "property": "C53",
   "status": "partial",
   "theorems": [
    "Verif.Web.c53_safe_partial",
    "Verif.Web.c53_short_request_counterexample",
    "Verif.Web.c53_echo_counterexample",
    "Verif.Web.c53_no_dot_counterexample",
    "Verif.Web.c53_overflow_counterexample"
   ],
   "note": "False of the code; safe for parsed targets that fit the buffers when the path contains a dot."
  },
  {
   "property": "C54",
   "status": "partial",
   "theorems": [
    "Verif.Web.c54_crlf_partial",
    "Verif.Web.c54_missing_file_counterexample"
   ],
   "note": "False for code 400."
  },
  {
   "property": "C55",
   "status": "partial",
   "theorems": [
    "Verif.Web.c55_tunnel_partial",
    "Verif.Web.c55_request_lost_counterexample",
    "Verif.Web.c55_short_request_counterexample",
    "Verif.WebAccept.c108_tunnel_partial",
    "Verif.WebAccept.c108_first_request_counterexample"
   ],
   "note": "Holds for tunnel clients; requests of web clients are lost."
  },
  {
   "property": "C56",
   "status": "partial",
   "theorems": [
    "Verif.Web.c56_leak_counterexample",
    "Verif.Web.c56_pipelined_lost_counterexample",
    "Verif.Web.c56_exhaustion_counterexample"
   ],
   "note": "False of the code: one buffer is lost per request."
  },
  {
   "property": "C57",
   "status": "partial",
   "theorems": [
    "Verif.Web.c57_exact_partial",
    "Verif.Web.c57_limit_counterexample"
   ],
   "note": "False of the code: the limit is 16344 bytes."
  },
  {
   "property": "C58",
   "status": "partial",
   "theorems": [
    "Verif.Ssl.c58_no_hang_partial",
    "Verif.Ssl.c58_hang_counterexample"
   ],
   "note": "False of the code after a failed certificate load."
  },
  {
   "property": "C59",
   "status": "partial",
   "theorems": [
    "Verif.Process.c59_reload_partial",
    "Verif.Process.c59_late_counterexample",
    "Verif.Process.c59_dead_worker_counterexample"
   ],
   "note": "Holds with all workers running and the signal arriving during the wait."
  },
  {
   "property": "C60",
   "status": "partial",
   "theorems": [
    "Verif.Log.c60_error_partial",
    "Verif.Log.c60_swapped_counterexample"
   ],
   "note": "Holds for errors; info and debug are swapped in the code."
  },
  {
   "property": "C61",
   "status": "partial",
   "theorems": [
    "Verif.Bst.c61_freed_partial",
    "Verif.Bst.c61_leak_counterexample"
   ],
   "note": "Exact count of freed nodes; numbers up to -1 are never freed."
  },
  {
   "property": "C62",
   "status": "proved",
   "theorems": [
    "Verif.CJson.c62_string_memory"
   ],
   "note": "Every position of every buffer."
  },
  {
   "property": "C63",
   "status": "partial",
   "theorems": [
    "Verif.CJson.c63_document_partial",
    "Verif.CJson.c63_long_number_counterexample",
    "Verif.CJson.c63_bom_partial",
    "Verif.CJson.c63_bom_short_counterexample"
   ],
   "note": "All documents whose numbers have at most 63 characters; longer numbers are cut by the code. A byte order mark is skipped in C strings, the only use in the program; in a buffer with a length it is not if one byte follows."
  },
  {
   "property": "C64",
   "status": "partial",
   "theorems": [
    "Verif.Http.c64_absolute_partial",
    "Verif.Http.c64_ipv6_counterexample"
   ],
   "note": "All lines whose host has no colon, slash or space; literal IPv6 hosts are split wrongly."
  },
  {
   "property": "C65",
   "status": "proved",
   "theorems": [
    "Verif.Http.c65_text_only"
   ],
   "note": "All streams and segmentations."
  },
  {
   "property": "C66",
   "status": "partial",
   "theorems": [
    "Verif.Http.c66_announced_partial",
    "Verif.Http.c66_white_space",
    "Verif.Http.c66_absent",
    "Verif.Http.c66_limit",
    "Verif.Http.c66_negative",
    "Verif.Http.c66_wrap_counterexample",
    "Verif.Http.c66_abbreviated_counterexample",
    "Verif.Http.c66_garbage_counterexample",
    "Verif.Http.c66_pipelined_counterexample"
   ],
   "note": "False of the code in four ways, each shown for a whole class of requests."
  },
  {
   "property": "C67",
   "status": "partial",
   "theorems": [
    "Verif.Http.c67_iff",
    "Verif.Http.c67_keep_alive_partial",
    "Verif.Http.c67_abbreviated_counterexample"
   ],
   "note": "c67_iff is the exact condition; abbreviations also count in the code."
  },
  {
   "property": "C68",
   "status": "proved",
   "theorems": [
    "Verif.Log.c68_routed"
   ],
   "note": "All levels, kinds and file states."
  },
  {
   "property": "C69",
   "status": "partial",
   "theorems": [
    "Verif.Config.c69_partial",
    "Verif.Config.c69_type_counterexample",
    "Verif.Config.c69_ports_counterexample",
    "Verif.Config.c69_wrap_counterexample",
    "Verif.Config.c69_string_counterexample",
    "Verif.Config.c69_cut_counterexample",
    "Verif.Config.c69_rest_partial"
   ],
   "note": "All JSON documents whose settings fit into the fields; the other five cases are shown to fail."
  },
  {
   "property": "C70",
   "status": "partial",
   "theorems": [
    "Verif.Config.c70_reads_partial",
    "Verif.Config.c70_ignored_counterexample",
    "Verif.Config.c70_grown_counterexample",
    "Verif.Config.c70_cut_counterexample"
   ],
   "note": "Independence from the split of reads holds; unusable files are ignored by the code, among them every configuration that stops before its end."
  },
  {
   "property": "C71",
   "status": "partial",
   "theorems": [
    "Verif.Config.c71_served_partial",
    "Verif.Config.c71_all_or_nothing_partial",
    "Verif.Config.c71_counterexample"
   ],
   "note": "Up to eight ports; further ones are ignored by the code. Binding is a parameter."
  },
  {
   "property": "C72",
   "status": "partial",
   "theorems": [
    "Verif.Config.c72_partial",
    "Verif.Config.c72_admitted_partial",
    "Verif.Config.c72_type_counterexample",
    "Verif.Config.c72_long_counterexample",
    "Verif.Config.c72_exact_partial"
   ],
   "note": "Exact: the keys of the file if its one read returns the whole array, which must end within 4096 bytes; otherwise none at all."
  },
  {
   "property": "C73",
   "status": "partial",
   "theorems": [
    "Verif.Web.c73_file_partial",
    "Verif.Web.c73_never_truncated_partial",
    "Verif.Web.c73_api",
    "Verif.Web.c73_echo",
    "Verif.Web.c73_buffers",
    "Verif.Web.c73_large_counterexample"
   ],
   "note": "Files of less than two gigabytes, read by a separate HTTP client; larger ones are announced with a negative length. Responses that never have to wait on connections without TLS (C103)."
  },
  {
   "property": "C74",
   "status": "partial",
   "theorems": [
    "Verif.Web.c74_status_partial",
    "Verif.Web.c74_missing_counterexample",
    "Verif.Web.c74_open_counterexample"
   ],
   "note": "The exact status in every case; a missing file gets 400 and a file that cannot be opened 200."
  },
  {
   "property": "C75",
   "status": "proved",
   "theorems": [
    "Verif.SysTime.c75_http_date"
   ],
   "note": "All clocks of years up to 9999, read back by a separate reader of HTTP dates."
  },
  {
   "property": "C76",
   "status": "partial",
   "theorems": [
    "Verif.SysTime.c76_log_time_partial",
    "Verif.SysTime.c76_year_counterexample"
   ],
   "note": "Years 2000 to 2999; other years are shown as one of these."
  },
  {
   "property": "C77",
   "status": "partial",
   "theorems": [
    "Verif.Timer.c77_on_time_partial",
    "Verif.Timer.c77_turn_possible",
    "Verif.Timer.c77_forward_counterexample",
    "Verif.Timer.c77_back_counterexample",
    "Verif.Timer.c77_asleep_counterexample",
    "Verif.SysTime.c77_clock"
   ],
   "note": "A clock that runs evenly, and calm histories as in C22; with a clock that is set, timers fire early, late or not at all."
  },
  {
   "property": "C78",
   "status": "partial",
   "theorems": [
    "Verif.Control.c78_words",
    "Verif.Control.c78_reaches_partial",
    "Verif.Control.c78_short_write",
    "Verif.Control.c78_no_pid",
    "Verif.Control.c78_reload_counterexample",
    "Verif.Control.c78_second_counterexample",
    "Verif.Control.c78_stale_counterexample"
   ],
   "note": "Exact words and round trip of the pid for all pids; after a reload, a second start or a kill the commands no longer reach the program."
  },
  {
   "property": "C79",
   "status": "partial",
   "theorems": [
    "Verif.Tunnel.c79_idle_closed",
    "Verif.Tunnel.c79_active_partial",
    "Verif.Tunnel.c79_slow_counterexample"
   ],
   "note": "Idle sessions are always closed; sessions that read something at least every ten seconds are not; a session whose destination drains slowly is closed although bytes move."
  },
  {
   "property": "C80",
   "status": "partial",
   "theorems": [
    "Verif.Accept.c80_once",
    "Verif.Accept.c80_taken_partial",
    "Verif.Accept.c80_refused_counterexample",
    "Verif.Accept.c80_behind_counterexample",
    "Verif.Accept.c80_next_partial"
   ],
   "note": "Exactly-once in all cases; all are handed over in order as long as no call fails; after a failure the rest waits for the next arrival."
  },
  {
   "property": "C81",
   "status": "partial",
   "theorems": [
    "Verif.Serve.c81_offered_partial",
    "Verif.Serve.c81_not_offered_counterexample"
   ],
   "note": "Greetings that offer method 0; all others are answered with method 0 as well."
  },
  {
   "property": "C82",
   "status": "partial",
   "theorems": [
    "Verif.Serve.c82_waiting_client_partial",
    "Verif.Serve.c82_no_deadlock_partial",
    "Verif.Serve.c82_greeting_counterexample",
    "Verif.Serve.c82_request_counterexample"
   ],
   "note": "Clients that wait for each answer, all segmentations and interleavings; bytes sent ahead are discarded."
  },
  {
   "property": "C83",
   "status": "partial",
   "theorems": [
    "Verif.Serve.c83_no_false_success_partial",
    "Verif.Serve.c83_command_counterexample",
    "Verif.Serve.c83_refused_counterexample"
   ],
   "note": "Success is never reported falsely; failures are not reported at all."
  },
  {
   "property": "C84",
   "status": "partial",
   "theorems": [
    "Verif.WebLife.c84_no_fault_partial",
    "Verif.WebLife.c84_balance_partial",
    "Verif.WebLife.c84_lost_partial",
    "Verif.WebLife.c84_expires",
    "Verif.WebLife.c84_header_counterexample",
    "Verif.WebLife.c84_header_waits",
    "Verif.WebLife.c84_keepalive_counterexample",
    "Verif.WebLife.c84_body_counterexample"
   ],
   "note": "With and without TLS, in secret mode or not. No fault unless one of three allocations fails; exact number of blocks lost."
  },
  {
   "property": "C85",
   "status": "partial",
   "theorems": [
    "Verif.Accept.c85_quick_partial",
    "Verif.Accept.c85_slow_counterexample"
   ],
   "note": "The time allowed is five milliseconds; slower clients are closed."
  },
  {
   "property": "C86",
   "status": "partial",
   "theorems": [
    "Verif.Serve.c86_nothing_before_admission",
    "Verif.Serve.c86_contiguous_partial",
    "Verif.TlsRelay.c86_gap_counterexample"
   ],
   "note": "All histories, for an arbitrary set of admitted headers, without what the TLS layer does to callbacks; with it, after a reply that had to wait, a part of the stream can be sent back to the client and is missing upstream."
  },
  {
   "property": "C87",
   "status": "proved",
   "theorems": [
    "Verif.Conns.c87_histories",
    "Verif.Conns.c87_no_crash",
    "Verif.Conns.c87_stop_seen",
    "Verif.Conns.c87_open",
    "Verif.Conns.c87_pass"
   ],
   "note": "All histories; this also discharges the bound on the number of timers assumed in C21 and C22."
  },
  {
   "property": "C88",
   "status": "partial",
   "theorems": [
    "Verif.Start.c88_pid_partial",
    "Verif.Start.c88_runs_partial",
    "Verif.Start.c88_status_counterexample",
    "Verif.Start.c88_file_counterexample"
   ],
   "note": "The PID file always names the process that runs; a daemon that fails is reported as started and a failed write leaves a broken PID file."
  },
  {
   "property": "C89",
   "status": "partial",
   "theorems": [
    "Verif.Start.c89_web_partial",
    "Verif.Start.c89_no_keys_partial",
    "Verif.Start.c89_keyfile_counterexample",
    "Verif.Start.c89_memory_counterexample",
    "Verif.Start.c89_epoll_counterexample"
   ],
   "note": "Exact condition for serving; a worker that lacks something runs on and crashes or ignores requests."
  },
  {
   "property": "C90",
   "status": "proved",
   "theorems": [
    "Verif.Aho.c90_freed_once",
    "Verif.Aho.c90_keys"
   ],
   "note": "All contents of the key file and all results of reading it."
  },
  {
   "property": "C91",
   "status": "partial",
   "theorems": [
    "Verif.Path.c91_up_partial",
    "Verif.Path.c91_down_partial",
    "Verif.Path.c91_everything_partial",
    "Verif.Path.c91_ends_partial",
    "Verif.Path.c91_no_dead_end_partial",
    "Verif.Path.c91_key",
    "Verif.TlsPath.c91_tls_partial"
   ],
   "note": "Order and destination also with what the TLS layer does to callbacks and interest, unless the header or the reply has to wait; that everything arrives only without it, since with it a direction can stand still (C102). Destinations are IPv4 addresses and names of 1 to 254 bytes without NUL; keys of 1 to 16 bytes, on a matcher in its initial node; TLS is trusted to carry records in order."
  },
  {
   "property": "C92",
   "status": "partial",
   "theorems": [
    "Verif.Reload.c92_keys_partial",
    "Verif.Reload.c92_config_counterexample"
   ],
   "note": "The keys of the file are in force in every worker after a reload in which the workers exit and can be started; the configuration is read once, so an edited one never comes into force."
  },
  {
   "property": "C93",
   "status": "partial",
   "theorems": [
    "Verif.Ident.c93_table",
    "Verif.Ident.c93_large_counterexample",
    "Verif.Ident.c93_ends_partial",
    "Verif.Ident.c93_starts",
    "Verif.Ident.c93_worker_255_counterexample",
    "Verif.Ident.c93_restart_255_counterexample"
   ],
   "note": "Up to 178956970 entries; workers end properly with up to 255 of them; the number of worker 255 is the mark of the master."
  },
  {
   "property": "C94",
   "status": "partial",
   "theorems": [
    "Verif.Signals.c94_single_partial",
    "Verif.Signals.c94_worker_partial",
    "Verif.Signals.c94_master_partial",
    "Verif.Signals.c94_early_counterexample",
    "Verif.Signals.c94_late_counterexample",
    "Verif.Signals.c94_before_counterexample"
   ],
   "note": "All signals at all points except before the context is allocated and after it is freed, where they crash the process."
  },
  {
   "property": "C95",
   "status": "partial",
   "theorems": [
    "Verif.Stop.c95_in_time_partial",
    "Verif.Stop.c95_noticed_partial",
    "Verif.Stop.c95_race_counterexample",
    "Verif.Stop.c95_asleep_counterexample"
   ],
   "note": "Bounds for every moment of the request; between the look at the flag and the wait a request is noticed after the wait only."
  },
  {
   "property": "C96",
   "status": "partial",
   "theorems": [
    "Verif.Select.c96_dispatch_partial",
    "Verif.Select.c96_found_partial",
    "Verif.Select.c96_dead_counterexample",
    "Verif.Select.c96_spurious_counterexample",
    "Verif.Select.c96_large_counterexample",
    "Verif.Select.c96_bounds_partial",
    "Verif.Select.c96_table_counterexample"
   ],
   "note": "Dispatch is exact in all histories; what is reported is exact until a connection is closed that waits for events, after which the loop is dead or reports too much."
  },
  {
   "property": "C97",
   "status": "partial",
   "theorems": [
    "Verif.Exit.c97_clean_partial",
    "Verif.Exit.c97_early_counterexample",
    "Verif.Exit.c97_twice_counterexample",
    "Verif.Exit.c97_lost_counterexample",
    "Verif.Exit.c97_master"
   ],
   "note": "Memory: all workers that have a pool; listening sockets are closed twice, unsent data is dropped, and a worker without a pool crashes."
  },
  {
   "property": "C98",
   "status": "partial",
   "theorems": [
    "Verif.TlsSetup.c98_certificate",
    "Verif.TlsSetup.c98_own",
    "Verif.TlsSetup.c98_limits_partial",
    "Verif.TlsSetup.c98_server_counterexample",
    "Verif.TlsSetup.c98_client_counterexample",
    "Verif.TlsSetup.c98_peer_counterexample",
    "Verif.TlsSetup.c98_memory",
    "Verif.TlsSetup.c98_watch"
   ],
   "note": "Certificates and memory in all histories; limits as long as the calls that set them succeed; after one failure later connections have no limits; the certificate of the peer is never verified. OpenSSL itself is trusted."
  },
  {
   "property": "C99",
   "status": "partial",
   "theorems": [
    "Verif.CJson.c99_accepted_partial",
    "Verif.CJson.c99_exact",
    "Verif.CJson.c99_cut",
    "Verif.CJson.c99_rest_counterexample",
    "Verif.CJson.c99_bytes_counterexample",
    "Verif.CJson.c99_hex_counterexample",
    "Verif.CJson.c99_quote_counterexample"
   ],
   "note": "Texts that are cut short are refused, and what is accepted is characterised exactly by a wider grammar (`Spec/CJsonLax.lean`); it is wider than JSON: anything may follow, strings are not checked, bad hexadecimal digits stand for 0, the closing quote can be read twice."
  },
  {
   "property": "C100",
   "status": "partial",
   "theorems": [
    "Verif.Spawn.c100_partial",
    "Verif.Spawn.c100_exact_partial",
    "Verif.Spawn.c100_fork_counterexample",
    "Verif.Spawn.c100_mask_counterexample",
    "Verif.Spawn.c100_single",
    "Verif.Spawn.c100_reload_counterexample"
   ],
   "note": "Exact condition for a master with all its workers; a failed fork leaves workers without a master that no command reaches, with status 0; without workers -reload does nothing."
  },
  {
   "property": "C101",
   "status": "partial",
   "theorems": [
    "Verif.Worker.c101_alone_partial",
    "Verif.Worker.c101_own_bytes_partial",
    "Verif.Worker.c101_released_partial",
    "Verif.Worker.c101_started",
    "Verif.Worker.c101_exhausted_counterexample"
   ],
   "note": "All histories in which the calls of the pool return properly; when a size class runs out the pool overwrites memory, and nothing holds any more."
  },
  {
   "property": "C102",
   "status": "partial",
   "theorems": [
    "Verif.TlsRelay.c102_order_partial",
    "Verif.TlsRelay.c102_flush_partial",
    "Verif.TlsRelay.c102_progress_partial",
    "Verif.TlsRelay.c102_no_stall_partial",
    "Verif.TlsRelay.c102_write_resumes_partial",
    "Verif.TlsRelay.c102_upload_starves_counterexample",
    "Verif.TlsRelay.c102_wakeup_lost_counterexample",
    "Verif.TlsRelay.c102_null_call_counterexample",
    "Verif.TlsRelay.c102_echo_counterexample",
    "Verif.TlsClient.c102_client_session_partial",
    "Verif.TlsClient.c102_client_echo_counterexample"
   ],
   "note": "Order and completeness for all results of the TLS layer unless the message before the relay had to wait; progress while nothing waits to be written to the TLS connection. False otherwise: a direction stands still, in one case for ever; NULL is called; uploads are sent back."
  },
  {
   "property": "C103",
   "status": "partial",
   "theorems": [
    "Verif.Props.WebSend.c103_order",
    "Verif.Props.WebSend.c103_tls_progress",
    "Verif.Props.WebSend.c103_tls_delivers",
    "Verif.Props.WebSend.c103_plain_whole_partial",
    "Verif.Props.WebSend.c103_plain_stalls_counterexample",
    "Verif.Props.WebSend.c103_plain_waits_counterexample"
   ],
   "note": "Over TLS: always. Without TLS only responses that the kernel takes at once: writing is never registered, so a response that has to wait is never continued and is cut by its timer."
  },
  {
   "property": "C104",
   "status": "partial",
   "theorems": [
    "Verif.TlsServe.c104_right_handler_partial",
    "Verif.TlsServe.c104_wakes_partial",
    "Verif.TlsServe.c104_upstream_partial",
    "Verif.TlsServe.c104_same_session",
    "Verif.TlsServe.c104_waiting_client_partial",
    "Verif.TlsServe.c104_relay_start_partial",
    "Verif.TlsServe.c104_session_order_partial",
    "Verif.TlsServe.c104_handshake_counterexample"
   ],
   "note": "All waits of all steps up to the relay, except a handshake that has to wait for writability, after which a callback calls itself without end. After a reply that had to wait the relay is in the state of the counterexample of C102. Writes are whole, since ssl.c does not enable partial writes."
  },
  {
   "property": "C105",
   "status": "proved",
   "theorems": [
    "Verif.TlsClient.c105_right_handler",
    "Verif.TlsClient.c105_resolve",
    "Verif.TlsClient.c105_wakes",
    "Verif.TlsClient.c105_reaches",
    "Verif.TlsClient.c105_ends",
    "Verif.TlsClient.c105_header",
    "Verif.TlsClient.c105_relay_start"
   ],
   "note": "All waits, up to the beginning of the relay. Which connections a timer releases is C47; a header that had to wait leaves its handler behind for the relay (C102). Writes are whole, since ssl.c does not enable partial writes."
  },
  {
   "property": "C106",
   "status": "partial",
   "theorems": [
    "Verif.WebConn.c106_waits",
    "Verif.WebConn.c106_answers_partial",
    "Verif.WebConn.c106_delivers_partial",
    "Verif.WebConn.c106_buffer",
    "Verif.WebConn.c106_cut_counterexample",
    "Verif.WebConn.c106_behind_body_counterexample"
   ],
   "note": "Callbacks and buffers: whatever arrives. Answers: every request begins with a TLS record of its own; its head is in one record or is cut right behind the request line (any other cut is not understood, c106_cut_counterexample and C32), its body may be cut anywhere. Requests behind another one in the same record are lost (C56). From the end of the handshake on, with secret mode off; from accept on, and secret mode, in C108. Allocations succeed."
  },
  {
   "property": "C107",
   "status": "partial",
   "theorems": [
    "Verif.TlsClose.c107_only_closing",
    "Verif.TlsClose.c107_released_partial",
    "Verif.TlsClose.c107_held_counterexample",
    "Verif.TlsClose.c107_answered_partial",
    "Verif.TlsClose.c107_bye_partial",
    "Verif.TlsClose.c107_bye_counterexample"
   ],
   "note": "That nothing but the shutdown is done, and one release at most: all histories. Released five seconds after the last event; a peer that keeps sending a few bytes holds the connection for ever. The closing message is left out if the socket is full for five milliseconds. SSL_shutdown is modelled as documented."
  },
  {
   "property": "C108",
   "status": "partial",
   "theorems": [
    "Verif.WebAccept.c108_waits_partial",
    "Verif.WebAccept.c108_handshake_counterexample",
    "Verif.WebAccept.c108_endless",
    "Verif.WebAccept.c108_web_partial",
    "Verif.WebAccept.c108_answers_partial",
    "Verif.WebAccept.c108_delivers_partial",
    "Verif.WebAccept.c108_tunnel_partial",
    "Verif.WebAccept.c108_first_request_counterexample"
   ],
   "note": "All histories in which the handshake does not wait for writability; one that does ends in a call without end. In secret mode nothing of a tunnel client is lost up to the check of its header, but the first request of every web client is. The hand-over to the tunnel is the end of the model; requests as in C106. Allocations succeed."
  },
  {
   "property": "C109",
   "status": "partial",
   "theorems": [
    "Verif.Hold.c109_bounded_partial",
    "Verif.Hold.c109_silent",
    "Verif.Hold.c109_waits",
    "Verif.Hold.c109_answer",
    "Verif.Hold.c109_held_counterexample",
    "Verif.Hold.c109_shake_held_counterexample"
   ],
   "note": "Silence: always. A bound (ten seconds for each of 844 calls) as long as no handler is called in vain; every call in vain starts the timer anew, so a client that sends empty or incomplete TLS records holds its session for ever. How late the timers are looked at is a parameter; C112 bounds it."
  },
  {
   "property": "C110",
   "status": "proved",
   "theorems": [
    "Verif.CJsonMem.c110_parse",
    "Verif.CJsonMem.c110_enough",
    "Verif.CJsonMem.c110_delete",
    "Verif.CJsonMem.c110_nothing_left",
    "Verif.CJsonMem.c110_member",
    "Verif.CJsonMem.c110_child",
    "Verif.CJsonMem.c110_size",
    "Verif.CJsonMem.c110_root"
   ],
   "note": "A block is an item or a string; addresses are given out once, so a use after free is undefined behaviour of the model. The number of an allocation decides whether it fails. Values are the integers the program reads; the text decides about acceptance as in C50."
  },
  {
   "property": "C111",
   "status": "partial",
   "theorems": [
    "Verif.WebHold.c111_silent",
    "Verif.WebHold.c111_waits",
    "Verif.WebHold.c111_request_partial",
    "Verif.WebHold.c111_response_partial",
    "Verif.WebHold.c111_held_counterexample",
    "Verif.WebHold.c111_plain",
    "Verif.WebHold.c111_continued"
   ],
   "note": "Silence and timers: always. A bound (five seconds for each of 20442 events of a request and for each byte of a response) as long as no event is in vain; every event in vain starts the timer anew, so a client that sends empty or incomplete TLS records holds its connection for ever. Requests over TLS, responses over TLS and without. From the end of the handshake on; how late the timers are looked at is a parameter, which C112 bounds."
  },
  {
   "property": "C112",
   "status": "proved",
   "theorems": [
    "Verif.Timer.c112_all",
    "Verif.Timer.c112_bounded",
    "Verif.Timer.c112_loop",
    "Verif.Timer.c112_late_counterexample"
   ],
   "note": "The bound is the number of timers times the longest delay and the longest time between looks; for the loop of a worker also in real time, with the time the loop sleeps. A case shows that seconds of delay do occur with the delays of the program. The clock runs evenly (C77 is about one that does not)."
  },
  {
   "property": "C113",
   "status": "partial",
   "theorems": [
    "Verif.Cipher.c113_cfb_round",
    "Verif.Cipher.c113_cfb_mode",
    "Verif.Cipher.c113_no_context",
    "Verif.Cipher.c113_cfb_failed",
    "Verif.Cipher.c113_cfb_reveals_counterexample",
    "Verif.Cipher.c113_cfb_malleable_counterexample",
    "Verif.Cipher.c113_context",
    "Verif.Cipher.c113_gcm_round",
    "Verif.Cipher.c113_gcm_rejects",
    "Verif.Cipher.c113_gcm_once",
    "Verif.Cipher.c113_gcm_reveals_counterexample",
    "Verif.Cipher.c113_rand_partial",
    "Verif.Cipher.c113_rand_short_counterexample"
   ],
   "note": "Round trips, refusal, contexts: always. Key and IV are constants in the source, so two messages do show their difference; the helper without a tag notices no change; a short read of the random device counts as success. No other file calls these helpers."
  },
  {
   "property": "C114",
   "status": "partial",
   "theorems": [
    "Verif.WebPlain.c114_waits",
    "Verif.WebPlain.c114_hangup",
    "Verif.WebPlain.c114_answers_partial",
    "Verif.WebPlain.c114_delivers_partial",
    "Verif.WebPlain.c114_stalls_counterexample",
    "Verif.WebPlain.c114_pipelined_counterexample",
    "Verif.WebPlain.c114_abort_counterexample"
   ],
   "note": "Callbacks: always. Order and content: for clients that send each head in one piece and the next request when they have read the response; all is delivered if no send call has to wait. A response that has to wait is never continued; a request sent right behind another one is lost; a request line of exactly 4096 bytes ends the worker. Heads that are cut are in C32."
  },
  {
   "property": "C115",
   "status": "partial",
   "theorems": [
    "Verif.CJsonPrint.c115_print",
    "Verif.CJsonPrint.c115_enough",
    "Verif.CJsonPrint.c115_buffered",
    "Verif.CJsonPrint.c115_valid_partial",
    "Verif.CJsonPrint.c115_integer",
    "Verif.CJsonPrint.c115_back_partial",
    "Verif.CJsonPrint.c115_zero_counterexample",
    "Verif.CJsonPrint.c115_infinite_counterexample",
    "Verif.CJsonPrint.c115_neighbour_counterexample",
    "Verif.CJsonPrint.c115_overflow_counterexample",
    "Verif.CJsonPrint.c115_deep_counterexample"
   ],
   "note": "The text, memory and failures: always. Reading back: documents nested at most 1000 deep, without zero bytes in strings, whose numbers the C library reads back from the text printed for them. Otherwise strings are cut, infinite numbers become null, neighbouring numbers are confused, and deep documents are refused."
  },
  {
   "property": "C116",
   "status": "partial",
   "theorems": [
    "Verif.CJsonPrint.c116_preallocated",
    "Verif.CJsonPrint.c116_exact_counterexample"
   ],
   "note": "All sizes and contents; one byte more than the text and its zero byte is needed."
  },
  {
   "property": "C117",
   "status": "partial",
   "theorems": [
    "Verif.CJsonMinify.c117_memory",
    "Verif.CJsonMinify.c117_document_partial",
    "Verif.CJsonMinify.c117_reads_partial",
    "Verif.CJsonMinify.c117_backslash_counterexample"
   ],
   "note": "Memory: always. The document is kept if no string or name in it ends in a backslash; behind one that does, strings lose their blanks."
  },
  {
   "property": "C118",
   "status": "proved",
   "theorems": [
    "Verif.CJsonMem.c118_copy",
    "Verif.CJsonMem.c118_shallow",
    "Verif.CJsonMem.c118_same",
    "Verif.CJsonMem.c118_apart",
    "Verif.CJsonMem.c118_zero_counterexample"
   ],
   "note": "Memory as in C110: addresses are given out once, the number of an allocation decides whether it fails. Pointers to the previous item: see C122. The last theorem shows what the zero byte means: a string with one is cut in the copy."
  },
  {
   "property": "C119",
   "status": "partial",
   "theorems": [
    "Verif.CJsonCompare.c119_compare_partial",
    "Verif.CJsonCompare.c119_symmetric",
    "Verif.CJsonCompare.c119_copy_partial",
    "Verif.CJsonCompare.c119_twice_counterexample",
    "Verif.CJsonCompare.c119_infinite_counterexample",
    "Verif.CJsonCompare.c119_cost_array",
    "Verif.CJsonCompare.c119_cost_object",
    "Verif.CJsonCompare.c119_stops",
    "Verif.CJsonCompare.c119_cost_counterexample"
   ],
   "note": "Symmetry: always. The answer is right for documents without two members of the same name in an object and with finite numbers. Otherwise a document differs from its copy; an infinite number is the same as any other number but not as itself; and every level of objects doubles the number of calls."
  },
  {
   "property": "C120",
   "status": "proved",
   "theorems": [
    "Verif.CJsonMem.c120_append",
    "Verif.CJsonMem.c120_detach",
    "Verif.CJsonMem.c120_insert",
    "Verif.CJsonMem.c120_detachAt",
    "Verif.CJsonMem.c120_replace",
    "Verif.CJsonMem.c120_replace_self",
    "Verif.CJsonMem.c120_append_self",
    "Verif.CJsonMem.c120_series",
    "Verif.CJsonMem.c120_series_item",
    "Verif.CJsonMem.c120_append_shared_counterexample",
    "Verif.CJsonMem.c120_append_unlinked_counterexample"
   ],
   "note": "Pointers that the functions check for NULL are not NULL, indices are not negative, and no item is a reference or has a constant name. Replacing is proved as a single step; a series consists of adding, inserting and detaching. The last theorem shows why an item must be in no other list."
  },
  {
   "property": "C121",
   "status": "partial",
   "theorems": [
    "Verif.CJsonMem.c121_add",
    "Verif.CJsonMem.c121_add_no_memory",
    "Verif.CJsonMem.c121_add_self",
    "Verif.CJsonMem.c121_detach",
    "Verif.CJsonMem.c121_replace_partial",
    "Verif.CJsonMem.c121_replace_no_memory",
    "Verif.CJsonMem.c121_replace_own_name_counterexample"
   ],
   "note": "Adding and taking out: as stated. Replacing: only if the name given is not the block with the replacement's own name; that one is freed before it is copied. Names are compared without regard to case; no item is a reference or has a constant name; all members have names."
  },
  {
   "property": "C122",
   "status": "proved",
   "theorems": [
    "Verif.CJsonMem.c122_parse",
    "Verif.CJsonMem.c122_copy",
    "Verif.CJsonMem.c122_extend"
   ],
   "note": "Memory as in C110 and C118. Whatever value is read or copied, for every pattern of failing allocations that lets it succeed."
  },
  {
   "property": "C123",
   "status": "proved",
   "theorems": [
    "Verif.CJsonMem.c123_item",
    "Verif.CJsonMem.c123_string",
    "Verif.CJsonMem.c123_numbers",
    "Verif.CJsonMem.c123_strings",
    "Verif.CJsonMem.c123_linked",
    "Verif.CJsonMem.c123_add",
    "Verif.CJsonMem.c123_add_string"
   ],
   "note": "Memory as in C110. Raw text and references are not modelled; the integer beside the floating value of a number is part of its type. The counts of the arrays are not negative."
  },
  {
   "property": "C124",
   "status": "partial",
   "theorems": [
    "Verif.CJsonMem.c124_set_partial",
    "Verif.CJsonMem.c124_other",
    "Verif.CJsonMem.c124_own_counterexample",
    "Verif.CJsonMem.c124_null_counterexample"
   ],
   "note": "As stated if the string given is a block of its own. The item's own string is copied onto itself by strcpy, for which C says nothing; a pointer into the middle of the own string is not expressible in the model."
  },
  {
   "property": "C125",
   "status": "partial",
   "theorems": [
    "Verif.CJsonMem.c125_delete",
    "Verif.CJsonMem.c125_shows",
    "Verif.CJsonMem.c125_copy",
    "Verif.CJsonMem.c125_back",
    "Verif.CJsonMem.c125_add",
    "Verif.CJsonMem.c125_add_no_memory",
    "Verif.CJsonMem.c125_add_delete",
    "Verif.CJsonMem.c125_add_named_partial",
    "Verif.CJsonMem.c125_add_named_no_memory",
    "Verif.CJsonMem.c125_leak_counterexample",
    "Verif.CJsonMem.c125_const",
    "Verif.CJsonMem.c125_const_self",
    "Verif.CJsonMem.c125_string",
    "Verif.CJsonMem.c125_array",
    "Verif.CJsonMem.c125_object",
    "Verif.CJsonMem.c125_set"
   ],
   "note": "As stated except for adding a reference to an object when there is memory for the reference but not for its name: the reference is lost. The two bits are kept beside the memory, by address. Raw text is not modelled."
  }
 ]
}