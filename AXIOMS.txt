'RKSV.jws_object_round_trip' depends on axioms: [propext, Classical.choice, Quot.sound]
'RKSV.jws_string_round_trip' depends on axioms: [propext, Classical.choice, Quot.sound]
'RKSV.jws_written_is_reproduced' depends on axioms: [propext, Classical.choice, Quot.sound]
'RKSV.jws_string_malleable' depends on axioms: [propext, Classical.choice, Quot.sound]
'RKSV.b64Decode_eq_some_iff' depends on axioms: [propext, Classical.choice, Quot.sound]
'RKSV.qr_round_trip' depends on axioms: [propext, Classical.choice, Quot.sound]
'RKSV.qr_round_trip_canonical' depends on axioms: [propext, Classical.choice, Quot.sound]
'RKSV.qr_signature_canonical' depends on axioms: [propext, Classical.choice, Quot.sound]
'RKSV.Demo.qr_signature_changes' depends on axioms: [propext, Classical.choice, Quot.sound]
'RKSV.ocr_round_trip_partial' depends on axioms: [propext, Classical.choice, Quot.sound]
'RKSV.ocr_empty_counter_unreadable' depends on axioms: [propext, Classical.choice, Quot.sound]
'RKSV.ocr_python3' depends on axioms: [propext, Classical.choice, Quot.sound]
'RKSV.ocr_python3_own_output' depends on axioms: [propext, Classical.choice, Quot.sound]
'RKSV.csv_round_trip_partial' depends on axioms: [propext, Classical.choice, Quot.sound]
'RKSV.csv_semicolon_breaks' depends on axioms: [propext, Classical.choice, Quot.sound]
'RKSV.Demo.csv_whitespace_lost' depends on axioms: [propext, Classical.choice, Quot.sound]
'RKSV.payload_unambiguous' depends on axioms: [propext, Classical.choice, Quot.sound]
'RKSV.jws_unambiguous' depends on axioms: [propext, Classical.choice, Quot.sound]
'RKSV.parsers_fail_documented' depends on axioms: [propext, Classical.choice, Quot.sound]
'RKSV.ocr_fails_documented' depends on axioms: [propext, Classical.choice, Quot.sound]
'RKSV.Demo.every_error_occurs' depends on axioms: [propext, Classical.choice, Quot.sound]
'RKSV.parsed_well_formed_partial' depends on axioms: [propext, Classical.choice, Quot.sound]
'RKSV.company_id_not_serial' depends on axioms: [propext, Classical.choice, Quot.sound]
'RKSV.well_formed_constructible' depends on axioms: [propext, Classical.choice, Quot.sound]
'RKSV.Demo.newline_in_fields' depends on axioms: [propext, Classical.choice, Quot.sound]
'RKSV.Demo.closed_marker_newline' depends on axioms: [propext, Classical.choice, Quot.sound]
'RKSV.counter_length_partial' depends on axioms: [propext, Classical.choice, Quot.sound]
'RKSV.Demo.empty_counter_accepted' depends on axioms: [propext, Classical.choice, Quot.sound]
'RKSV.header_pinned' depends on axioms: [propext, Classical.choice, Quot.sound]
'RKSV.b64_inverse' depends on axioms: [propext, Classical.choice, Quot.sound]
'RKSV.b64_accepted' depends on axioms: [propext, Classical.choice, Quot.sound]
'RKSV.b64_decoded_length' depends on axioms: [propext, Classical.choice, Quot.sound]
'RKSV.kind_visible' depends on axioms: [propext, Classical.choice, Quot.sound]
'RKSV.kind_decoded' depends on axioms: [propext]
'RKSV.kinds_disjoint' depends on axioms: [propext]
'RKSV.zero_turnover_exact' depends on axioms: [propext, Classical.choice, Quot.sound]
'RKSV.zero_turnover_exact_parsed' depends on axioms: [propext, Classical.choice, Quot.sound]
'RKSV.turnover_exact_partial' depends on axioms: [propext, Classical.choice, Quot.sound]
'RKSV.null_turnover' depends on axioms: [propext, Classical.choice, Quot.sound]
'RKSV.Demo.turnover_inexact' depends on axioms: [propext, Classical.choice, Quot.sound]
'RKSV.Demo.turnover_overflow' depends on axioms: [propext, Classical.choice, Quot.sound]
'RKSV.counter_round_trip' depends on axioms: [propext, Quot.sound]
'RKSV.counter_bytes' depends on axioms: [propext, Quot.sound]
'RKSV.counter_from_bytes' depends on axioms: [propext, Quot.sound]
'RKSV.counter_overflow' depends on axioms: [propext, Quot.sound]
'RKSV.receipt_counter_decrypts' depends on axioms: [propext, Classical.choice, Quot.sound]
'RKSV.receipt_counter_errors' depends on axioms: [propext, Quot.sound]
'RKSV.decrypted_in_range' depends on axioms: [propext, Classical.choice, Quot.sound]
'RKSV.keystream_reuse' depends on axioms: [propext, Quot.sound]
'RKSV.equal_counters_visible' depends on axioms: [propext, Quot.sound]
'RKSV.iv_reuse_is_collision' depends on axioms: [propext, Classical.choice, Quot.sound]
'RKSV.url_hash_form' depends on axioms: [propext, Classical.choice, Quot.sound]
'RKSV.url_hash_verified_iff' depends on axioms: [propext, Classical.choice, Quot.sound]
'RKSV.url_anchor' depends on axioms: [propext]
'RKSV.url_path' depends on axioms: [propext, Quot.sound]
'RKSV.url_path_sound' depends on axioms: [propext, Quot.sound]
'RKSV.url_path_complete' depends on axioms: [propext, Quot.sound]
'RKSV.accepted_is_signed' depends on axioms: [propext, Classical.choice, Quot.sound]
'RKSV.receipt_accepted_iff' depends on axioms: [propext, Classical.choice, Quot.sound]
'RKSV.key_unique' depends on axioms: [propext, Classical.choice, Quot.sound]
'RKSV.Demo.mark_compared_as_text' depends on axioms: [propext, Classical.choice, Quot.sound]
'RKSV.signed_is_accepted' depends on axioms: [propext, Classical.choice, Quot.sound]
'RKSV.unparsable_is_rejected' depends on axioms: [propext, Classical.choice, Quot.sound]
'RKSV.serial_renderings_match' depends on axioms: [propext, Classical.choice, Quot.sound]
'RKSV.serial_matches_two' depends on axioms: [propext]
'RKSV.cert_used_iff_matches' depends on axioms: [propext, Classical.choice, Quot.sound]
'RKSV.int_text_iff' depends on axioms: [propext, Classical.choice, Quot.sound]
'RKSV.serial_text_iff' depends on axioms: [propext, Classical.choice, Quot.sound]
'RKSV.signature_covers_fields' depends on axioms: [propext, Classical.choice, Quot.sound]
'RKSV.altered_receipt_needs_forgery' depends on axioms: [propext, Classical.choice, Quot.sound]
'RKSV.qr_same_verdict' depends on axioms: [propext, Classical.choice, Quot.sound]
'RKSV.qr_stays_accepted' depends on axioms: [propext, Classical.choice, Quot.sound]
'RKSV.qr_stays_accepted_noncanonical' depends on axioms: [propext, Classical.choice, Quot.sound]
'RKSV.verify_errors' depends on axioms: [propext, Classical.choice, Quot.sound]
'RKSV.cert_trusted_iff' depends on axioms: [propext, Classical.choice, Quot.sound]
'RKSV.cert_verdict_local' depends on axioms: [propext]
'RKSV.cert_error_iff' depends on axioms: [propext, Classical.choice, Quot.sound]
'RKSV.walk_stops_once' depends on axioms: [propext, Quot.sound]
'RKSV.store_is_map' depends on axioms: [propext, Quot.sound]
'RKSV.store_ids' depends on axioms: [propext, Quot.sound]
'RKSV.store_load_errors' depends on axioms: [propext, Quot.sound]
'RKSV.store_json_round_trip' depends on axioms: [propext, Classical.choice, Quot.sound]
'RKSV.store_resaved' depends on axioms: [propext, Classical.choice, Quot.sound]
'RKSV.store_json_aes' depends on axioms: [propext, Classical.choice, Quot.sound]
'RKSV.Demo.odd_id_moves' depends on axioms: [propext, Classical.choice, Quot.sound]
'RKSV.store_read_total_partial' depends on axioms: [propext, Quot.sound]
'RKSV.Demo.empty_id_escapes' depends on axioms: [propext, Classical.choice, Quot.sound]
'RKSV.ini_id_survives_iff' depends on axioms: [propext, Quot.sound]
'RKSV.ini_round_trip' depends on axioms: [propext, Quot.sound]
'RKSV.ini_written' depends on axioms: [propext, Quot.sound]
'RKSV.load_aes_key' depends on axioms: [propext]
'RKSV.load_aes_key_error' depends on axioms: [propext, Classical.choice, Quot.sound]
'RKSV.store_read_iff' depends on axioms: [propext, Quot.sound]
'RKSV.group_chained' depends on axioms: [propext, Classical.choice, Quot.sound]
'RKSV.group_counter' depends on axioms: [propext, Classical.choice, Quot.sound]
'RKSV.sold_eq' depends on axioms: [propext, Classical.choice, Quot.sound]
'RKSV.sold_exact' depends on axioms: [propext, Classical.choice, Quot.sound]
'RKSV.group_ids_unique' depends on axioms: [propext, Classical.choice, Quot.sound]
'RKSV.addIds_eq' depends on axioms: [propext, Classical.choice, Quot.sound]
'RKSV.group_restore' depends on axioms: [propext, Classical.choice, Quot.sound]
'RKSV.group_same_register' depends on axioms: [propext, Classical.choice, Quot.sound]
'RKSV.group_initial' depends on axioms: [propext, Classical.choice, Quot.sound]
'RKSV.group_accepted_iff' depends on axioms: [propext, Classical.choice, Quot.sound]
'RKSV.reads_unique' depends on axioms: [propext, Classical.choice, Quot.sound]
'RKSV.saved_unique' depends on axioms: [propext, Classical.choice, Quot.sound]
'RKSV.tamper_evident' depends on axioms: [propext, Classical.choice, Quot.sound]
'RKSV.group_split' depends on axioms: [propext, Classical.choice, Quot.sound]
'RKSV.groups_split' depends on axioms: [propext, Classical.choice, Quot.sound]
'RKSV.groups_join' depends on axioms: [propext, Classical.choice, Quot.sound]
'RKSV.predicted_state' depends on axioms: [propext, Classical.choice, Quot.sound]
'RKSV.predicted_eq_verified' depends on axioms: [propext, Classical.choice, Quot.sound]
'RKSV.fresh_consistent' depends on axioms: [propext]
'RKSV.consistent_kept' depends on axioms: [propext, Classical.choice, Quot.sound]
'RKSV.Demo.start_guessed' depends on axioms: [propext, Classical.choice, Quot.sound]
'RKSV.parallel_iff' depends on axioms: [propext, Classical.choice, Quot.sound]
'RKSV.parallel_verdict' depends on axioms: [propext, Classical.choice, Quot.sound]
'RKSV.firstFresh_of_before' depends on axioms: [propext, Classical.choice, Quot.sound]
'RKSV.firstFresh_of_fresh' depends on axioms: [propext, Classical.choice, Quot.sound]
'RKSV.Demo.pool_ok' depends on axioms: [propext, Classical.choice, Quot.sound]
'RKSV.Demo.first_id_differs' depends on axioms: [propext, Classical.choice, Quot.sound]
'RKSV.no_pool_partial' depends on axioms: [propext, Classical.choice, Quot.sound]
'RKSV.no_pool_rejects' depends on axioms: [propext, Classical.choice, Quot.sound]
'RKSV.Demo.no_pool_differs' depends on axioms: [propext, Classical.choice, Quot.sound]
'RKSV.failed_untouched' depends on axioms: [propext, Classical.choice, Quot.sound]
'RKSV.parsed_failed_untouched' depends on axioms: [propext, Classical.choice, Quot.sound]
'RKSV.Demo.failed_retry' depends on axioms: [propext, Classical.choice, Quot.sound]
'RKSV.ok_touched' depends on axioms: [propext, Classical.choice, Quot.sound]
'RKSV.parsed_ok_touched' depends on axioms: [propext, Classical.choice, Quot.sound]
'RKSV.register_lookup_iff' depends on axioms: [propext, Classical.choice, Quot.sound]
'RKSV.bad_index' depends on axioms: [propext, Classical.choice, Quot.sound]
'RKSV.no_register_after_unused' depends on axioms: [propext, Quot.sound]
'RKSV.register_lookup_total' depends on axioms: [propext, Classical.choice, Quot.sound]
'RKSV.register_update_iff' depends on axioms: [propext, Classical.choice, Quot.sound]
'RKSV.register_update_bad' depends on axioms: [propext, Classical.choice, Quot.sound]
'RKSV.sorted_accepts_iff' depends on axioms: [propext, Classical.choice, Quot.sound]
'RKSV.sorted_increasing' depends on axioms: [propext, Classical.choice, Quot.sound]
'RKSV.sorted_merge' depends on axioms: [propext, Classical.choice, Quot.sound]
'RKSV.Demo.sorted_refuses_distinct' depends on axioms: [propext, Classical.choice, Quot.sound]
'RKSV.resume_iff' depends on axioms: [propext, Classical.choice, Quot.sound]
'RKSV.Demo.two_groups_one_by_one' depends on axioms: [propext, Classical.choice, Quot.sound]
'RKSV.arbitrary_receipt' depends on axioms: [propext, Classical.choice, Quot.sound]
'RKSV.arbitrary_dep' depends on axioms: [propext, Classical.choice, Quot.sound]
'RKSV.arbitrary_start_receipt' depends on axioms: [propext, Classical.choice, Quot.sound]
'RKSV.arbitrary_start_dep' depends on axioms: [propext, Classical.choice, Quot.sound]
'RKSV.state_json_round_trip' depends on axioms: [propext, Classical.choice, Quot.sound]
'RKSV.state_written' depends on axioms: [propext, Classical.choice, Quot.sound]
'RKSV.state_json_injective' depends on axioms: [propext, Classical.choice, Quot.sound]
'RKSV.state_read_iff' depends on axioms: [propext, Classical.choice, Quot.sound]
'RKSV.state_read_total' depends on axioms: [propext, Classical.choice, Quot.sound]
'RKSV.dict_chunks' depends on axioms: [propext, Classical.choice, Quot.sound]
'RKSV.dict_chunk_sizes' depends on axioms: [propext, Classical.choice, Quot.sound]
'RKSV.dict_chunks_zero' depends on axioms: [propext, Classical.choice, Quot.sound]
'RKSV.dict_no_receipts' depends on axioms: [propext, Classical.choice, Quot.sound]
'RKSV.grouped_unique' depends on axioms: [propext, Classical.choice, Quot.sound]
'RKSV.dict_parts' depends on axioms: [propext, Classical.choice, Quot.sound]
'RKSV.Demo.parts_exceeded' depends on axioms: [propext, Classical.choice, Quot.sound]
'RKSV.file_eq_dict' depends on axioms: [propext, Classical.choice, Quot.sound]
'RKSV.file_single_chunk' depends on axioms: [propext, Classical.choice, Quot.sound]
'RKSV.Demo.empty_key_differs' depends on axioms: [propext, Classical.choice, Quot.sound]
'RKSV.Demo.dotted_key_differs' depends on axioms: [propext, Classical.choice, Quot.sound]
'RKSV.stream_eq_dict' depends on axioms: [propext, Classical.choice, Quot.sound]
'RKSV.Demo.stream_no_cert' depends on axioms: [propext, Classical.choice, Quot.sound]
'RKSV.Demo.stream_certs_late' depends on axioms: [propext, Classical.choice, Quot.sound]
'RKSV.dict_errors_partial' depends on axioms: [propext, Quot.sound]
'RKSV.Demo.receipts_null' depends on axioms: [propext, Classical.choice, Quot.sound]
'RKSV.stream_errors' depends on axioms: [propext, Quot.sound]
'RKSV.inc_chunk_sizes' depends on axioms: [propext, Classical.choice, Quot.sound]
'RKSV.chunk_size_partial' depends on axioms: [propext, Classical.choice, Quot.sound]
'RKSV.chunk_size_doc_partial' depends on axioms: [propext, Classical.choice, Quot.sound]
'RKSV.Demo.chunk_size_matters' depends on axioms: [propext, Classical.choice, Quot.sound]
'RKSV.balance_ok' depends on axioms: [propext, Classical.choice, Quot.sound]
'RKSV.balance_empty' depends on axioms: [propext, Quot.sound]
'RKSV.batches_cut' depends on axioms: [propext, Classical.choice, Quot.sound]
'RKSV.batches_failing' depends on axioms: [propext, Classical.choice, Quot.sound]
'RKSV.unreadable_reported' depends on axioms: [propext, Classical.choice, Quot.sound]
'RKSV.balance_verify' depends on axioms: [propext, Classical.choice, Quot.sound]
'RKSV.gui_verdict' depends on axioms: [propext, Classical.choice, Quot.sound]
'RKSV.merge_keeps_receipts' depends on axioms: [propext, Classical.choice, Quot.sound]
'RKSV.merge_export_partial' depends on axioms: [propext, Classical.choice, Quot.sound]
'RKSV.merge_export_chains_partial' depends on axioms: [propext, Classical.choice, Quot.sound]
'RKSV.merge_export_certified' depends on axioms: [propext, Classical.choice, Quot.sound]
'RKSV.merge_collect' depends on axioms: [propext, Classical.choice, Quot.sound]
'RKSV.Demo.merge_ignores_chain' depends on axioms: [propext, Classical.choice, Quot.sound]
'RKSV.Demo.read_out_of_order' depends on axioms: [propext, Classical.choice, Quot.sound]
'RKSV.export_json' depends on axioms: [propext, Classical.choice, Quot.sound]
'RKSV.export_plain' depends on axioms: [propext, Quot.sound]
'RKSV.export_certs_first' depends on axioms: [propext, Quot.sound]
'RKSV.export_parse' depends on axioms: [propext, Classical.choice, Quot.sound]
'RKSV.export_parse_groups' depends on axioms: [propext, Classical.choice, Quot.sound]
'RKSV.split_merge' depends on axioms: [propext, Classical.choice, Quot.sound]
'RKSV.Rewritten.same' depends on axioms: [propext, Classical.choice, Quot.sound]
'RKSV.Rewritten.eq' depends on axioms: [propext, Classical.choice, Quot.sound]
'RKSV.split_merge_verdict' depends on axioms: [propext, Classical.choice, Quot.sound]
'RKSV.dep_verdict_chained' depends on axioms: [propext, Classical.choice, Quot.sound]
'RKSV.accept_chained' depends on axioms: [propext, Classical.choice, Quot.sound]
'RKSV.Demo.merging_changes_verdict' depends on axioms: [propext, Classical.choice, Quot.sound]
'RKSV.pem_cert_lines' depends on axioms: [propext, Quot.sound]
'RKSV.pem_key_lines' depends on axioms: [propext, Quot.sound]
'RKSV.pem_strip' depends on axioms: [propext, Quot.sound]
'RKSV.pem_export' depends on axioms: [propext, Quot.sound]
'RKSV.skip_bom_bytes' depends on axioms: [propext]
'RKSV.skip_bom_text' depends on axioms: [propext, Classical.choice, Quot.sound]
'RKSV.skip_bom_modes' depends on axioms: [propext, Classical.choice, Quot.sound]
'RKSV.skip_bom_pipe' depends on axioms: [propext]
'RKSV.history_accepted' depends on axioms: [propext, Classical.choice, Quot.sound]
'RKSV.register_counter_partial' depends on axioms: [propext, Classical.choice, Quot.sound]
'RKSV.receipt_counts' depends on axioms: [propext, Classical.choice, Quot.sound]
'RKSV.Demo.failed_call_counts' depends on axioms: [propext, Classical.choice, Quot.sound]
'RKSV.receipt_reads_back' depends on axioms: [propext, Classical.choice, Quot.sound]
'RKSV.register_size' depends on axioms: [propext, Quot.sound]
'RKSV.receipt_chained' depends on axioms: [propext, Classical.choice, Quot.sound]
'RKSV.next_receipt_chained' depends on axioms: [propext, Classical.choice, Quot.sound]
'RKSV.Demo.remote_answer_trusted' depends on axioms: [propext, Classical.choice, Quot.sound]
'RKSV.Demo.underscore_serial' depends on axioms: [propext, Classical.choice, Quot.sound]
'RKSV.receipt_contents' depends on axioms: [propext, Classical.choice, Quot.sound]
'RKSV.receipt_amounts' depends on axioms: [propext, Classical.choice, Quot.sound]
'RKSV.file_accepts_iff' depends on axioms: [propext, Classical.choice, Quot.sound]
'RKSV.certless_accepts_iff' depends on axioms: [propext, Classical.choice, Quot.sound]
'RKSV.stream_accepts_only' depends on axioms: [propext, Classical.choice, Quot.sound]
'RKSV.stream_accepts_iff_partial' depends on axioms: [propext, Classical.choice, Quot.sound]
'RKSV.dict_accepts_iff_partial' depends on axioms: [propext, Classical.choice, Quot.sound]
'RKSV.Demo.dict_takes_keys' depends on axioms: [propext, Classical.choice, Quot.sound]
'RKSV.verify_tool_modes_partial' depends on axioms: [propext, Classical.choice, Quot.sound]
'RKSV.verify_tool_session_partial' depends on axioms: [propext, Classical.choice, Quot.sound]
'RKSV.Demo.day_session' depends on axioms: [propext, Classical.choice, Quot.sound]
'RKSV.Demo.modes_differ' depends on axioms: [propext, Classical.choice, Quot.sound]
'RKSV.state_edit_iff' depends on axioms: [propext, Classical.choice, Quot.sound]
'RKSV.state_edit_spares_partial' depends on axioms: [propext, Classical.choice, Quot.sound]
'RKSV.state_tool_failed' depends on axioms: [propext, Classical.choice, Quot.sound]
'RKSV.state_session_iff' depends on axioms: [propext, Classical.choice, Quot.sound]
'RKSV.Demo.reset_forgets' depends on axioms: [propext, Classical.choice, Quot.sound]
'RKSV.state_update_verified' depends on axioms: [propext, Classical.choice, Quot.sound]
'RKSV.certless_parse' depends on axioms: [propext, Quot.sound]
'RKSV.key_tool_session_partial' depends on axioms: [propext, Classical.choice, Quot.sound]
'RKSV.key_tool_step' depends on axioms: [propext, Classical.choice, Quot.sound]
'RKSV.key_tool_create' depends on axioms: [propext, Classical.choice, Quot.sound]
'RKSV.key_edit_unique' depends on axioms: [propext, Quot.sound]
'RKSV.Demo.legacy_breaks_container' depends on axioms: [propext, Classical.choice, Quot.sound]
'RKSV.json2csv_iff' depends on axioms: [propext, Classical.choice, Quot.sound]
'RKSV.csv2json_iff' depends on axioms: [propext, Classical.choice, Quot.sound]
'RKSV.csv2json_empty' depends on axioms: [propext, Classical.choice, Quot.sound]
'RKSV.convert_round_trip_partial' depends on axioms: [propext, Classical.choice, Quot.sound]
'RKSV.convert_accepted' depends on axioms: [propext, Classical.choice, Quot.sound]
'RKSV.Demo.csv_two_for_one' depends on axioms: [propext, Classical.choice, Quot.sound]
'RKSV.receipt_tool_iff' depends on axioms: [propext, Classical.choice, Quot.sound]
'RKSV.receipt_tool_stops' depends on axioms: [propext, Classical.choice, Quot.sound]
'RKSV.receipt_tool_errors' depends on axioms: [propext, Classical.choice, Quot.sound]
'RKSV.receipt_tool_round_trip_partial' depends on axioms: [propext, Classical.choice, Quot.sound]
'RKSV.verify_receipt_tool_partial' depends on axioms: [propext, Classical.choice, Quot.sound]
'RKSV.verify_receipt_tool_python3' depends on axioms: [propext, Classical.choice, Quot.sound]
'RKSV.host_lines_iff' depends on axioms: [propext, Classical.choice, Quot.sound]
'RKSV.host_dep_iff' depends on axioms: [propext, Classical.choice, Quot.sound]
'RKSV.url_verified_iff' depends on axioms: [propext, Classical.choice, Quot.sound]
'RKSV.hosted_url_verifies' depends on axioms: [propext, Classical.choice, Quot.sound]
'RKSV.cert_extract_partial' depends on axioms: [propext, Classical.choice, Quot.sound]
'RKSV.cert_extract_readable_partial' depends on axioms: [propext, Classical.choice, Quot.sound]
'RKSV.Demo.certificate_lost' depends on axioms: [propext, Classical.choice, Quot.sound]
'RKSV.verify_tool_rules' depends on axioms: [propext, Classical.choice, Quot.sound]
'RKSV.verify_tool_rules_new' depends on axioms: [propext, Classical.choice, Quot.sound]
'RKSV.dep_accepted_iff' depends on axioms: [propext, Classical.choice, Quot.sound]
'RKSV.dep_history' depends on axioms: [propext, Classical.choice, Quot.sound]
'RKSV.Demo.dep_day_accepted' depends on axioms: [propext, Classical.choice, Quot.sound]
'RKSV.register_session' depends on axioms: [propext, Classical.choice, Quot.sound]
'RKSV.register_new' depends on axioms: [propext, Classical.choice, Quot.sound]
'RKSV.cluster_session' depends on axioms: [propext, Classical.choice, Quot.sound]
'RKSV.Demo.lives_good' depends on axioms: [propext, Classical.choice, Quot.sound]
'RKSV.receipt_made_iff' depends on axioms: [propext, Classical.choice, Quot.sound]
'RKSV.run_made_iff' depends on axioms: [propext, Classical.choice, Quot.sound]
'RKSV.Demo.orders_possible' depends on axioms: [propext, Classical.choice, Quot.sound]
'RKSV.demo_accepted' depends on axioms: [propext, Classical.choice, Quot.sound]
'RKSV.demo_runs' depends on axioms: [propext, Classical.choice, Quot.sound]
'RKSV.Demo.draws' depends on axioms: [propext, Classical.choice, Quot.sound]
'RKSV.Demo.closed_has_key' depends on axioms: [propext, Classical.choice, Quot.sound]
'RKSV.fleet_session' depends on axioms: [propext, Classical.choice, Quot.sound]
'RKSV.Demo.side_members' depends on axioms: [propext, Classical.choice, Quot.sound]
'RKSV.run_test_accepted' depends on axioms: [propext, Classical.choice, Quot.sound]
'RKSV.runTestFull_plain' depends on axioms: [propext, Classical.choice, Quot.sound]
'RKSV.Demo.side_runs' depends on axioms: [propext, Classical.choice, Quot.sound]
'RKSV.Demo.side_abides' depends on axioms: [propext, Classical.choice, Quot.sound]
'RKSV.Demo.side_keys' depends on axioms: [propext, Classical.choice, Quot.sound]
'RKSV.Demo.open_runs' depends on axioms: [propext, Classical.choice, Quot.sound]
'RKSV.Demo.open_abides' depends on axioms: [propext, Classical.choice, Quot.sound]
'RKSV.Demo.open_keys' depends on axioms: [propext, Classical.choice, Quot.sound]
'RKSV.test_turnovers' depends on axioms: [propext, Classical.choice, Quot.sound]
'RKSV.test_starts' depends on axioms: [propext, Classical.choice, Quot.sound]
'RKSV.test_links_partial' depends on axioms: [propext, Classical.choice, Quot.sound]
'RKSV.test_registers_partial' depends on axioms: [propext, Classical.choice, Quot.sound]
'RKSV.Demo.wrong_register' depends on axioms: [propext, Classical.choice, Quot.sound]
'RKSV.split_ends_iff' depends on axioms: [propext, Classical.choice, Quot.sound]
'RKSV.merge_ends_iff' depends on axioms: [propext, Classical.choice, Quot.sound]
'RKSV.json2csv_ends_iff' depends on axioms: [propext, Classical.choice, Quot.sound]
'RKSV.host_starts_iff' depends on axioms: [propext, Classical.choice, Quot.sound]
'RKSV.cert_extract_ends_iff' depends on axioms: [propext, Classical.choice, Quot.sound]
'RKSV.state_update_refused' depends on axioms: [propext, Classical.choice, Quot.sound]
'RKSV.verify_tool_accepts_only' depends on axioms: [propext, Classical.choice, Quot.sound]
'RKSV.group_refused_iff' depends on axioms: [propext, Classical.choice, Quot.sound]
'RKSV.faultless_iff' depends on axioms: [propext, Classical.choice, Quot.sound]
'RKSV.later_group_iff' depends on axioms: [propext, Classical.choice, Quot.sound]
'RKSV.dep_refused_iff' depends on axioms: [propext, Classical.choice, Quot.sound]
'RKSV.verify_tool_reports' depends on axioms: [propext, Classical.choice, Quot.sound]
'RKSV.Demo.gap_refused' depends on axioms: [propext, Classical.choice, Quot.sound]
'RKSV.Demo.twice_refused' depends on axioms: [propext, Classical.choice, Quot.sound]
'RKSV.Demo.late_refused' depends on axioms: [propext, Classical.choice, Quot.sound]
'RKSV.Demo.alone_refused' depends on axioms: [propext, Classical.choice, Quot.sound]
'RKSV.Demo.counter_refused' depends on axioms: [propext, Classical.choice, Quot.sound]
'RKSV.Demo.gapDoc_refused' depends on axioms: [propext, Classical.choice, Quot.sound]
'RKSV.Demo.mode_reports' depends on axioms: [propext, Classical.choice, Quot.sound]
'RKSV.test_contents' depends on axioms: [propext, Classical.choice, Quot.sound]
'RKSV.Demo.falsified_runs' depends on axioms: [propext, Classical.choice, Quot.sound]
'RKSV.falsified_refused' depends on axioms: [propext, Classical.choice, Quot.sound]
'RKSV.falsified_unreadable' depends on axioms: [propext, Classical.choice, Quot.sound]
'RKSV.receiptWith_empty' depends on axioms: [propext, Classical.choice, Quot.sound]
'RKSV.Demo.met_chain' depends on axioms: [propext, Classical.choice, Quot.sound]
'RKSV.Demo.met_amounts' depends on axioms: [propext, Classical.choice, Quot.sound]
'RKSV.Demo.met_counter' depends on axioms: [propext, Classical.choice, Quot.sound]
'RKSV.Demo.met_date' depends on axioms: [propext, Classical.choice, Quot.sound]
'RKSV.Demo.met_register' depends on axioms: [propext, Classical.choice, Quot.sound]
'RKSV.Demo.met_receipt' depends on axioms: [propext, Classical.choice, Quot.sound]
'RKSV.Demo.chain_falsified' depends on axioms: [propext, Classical.choice, Quot.sound]
'RKSV.test_case_passes_iff' depends on axioms: [propext, Classical.choice, Quot.sound]
'RKSV.test_case_accepted' depends on axioms: [propext, Classical.choice, Quot.sound]
'RKSV.test_case_refused' depends on axioms: [propext, Classical.choice, Quot.sound]
'RKSV.test_case_expects_too_much' depends on axioms: [propext, Classical.choice, Quot.sound]
'RKSV.cents_exact' depends on axioms: [propext, Classical.choice, Quot.sound]
'RKSV.Demo.side_passes' depends on axioms: [propext, Classical.choice, Quot.sound]
'RKSV.Demo.open_fails' depends on axioms: [propext, Classical.choice, Quot.sound]
'RKSV.Demo.chain_passes' depends on axioms: [propext, Classical.choice, Quot.sound]
'RKSV.test_falsified_refused' depends on axioms: [propext, Classical.choice, Quot.sound]
'RKSV.test_unreadable_refused' depends on axioms: [propext, Classical.choice, Quot.sound]
'RKSV.test_falsified_driver' depends on axioms: [propext, Classical.choice, Quot.sound]
'RKSV.test_unreadable_driver' depends on axioms: [propext, Classical.choice, Quot.sound]
'RKSV.test_falsified_verdict' depends on axioms: [propext, Classical.choice, Quot.sound]
'RKSV.test_unreadable_verdict' depends on axioms: [propext, Classical.choice, Quot.sound]
'RKSV.Demo.unchained_meets' depends on axioms: [propext, Classical.choice, Quot.sound]
'RKSV.Demo.unchained_passes' depends on axioms: [propext, Classical.choice, Quot.sound]
'RKSV.Demo.three_abides' depends on axioms: [propext, Classical.choice, Quot.sound]
'RKSV.Demo.three_runs' depends on axioms: [propext, Classical.choice, Quot.sound]
'RKSV.Demo.unchained_runs' depends on axioms: [propext, Classical.choice, Quot.sound]
'RKSV.text_accepted_iff' depends on axioms: [propext, Classical.choice, Quot.sound]
'RKSV.text_certless_iff' depends on axioms: [propext, Classical.choice, Quot.sound]
'RKSV.text_stream_only' depends on axioms: [propext, Classical.choice, Quot.sound]
'RKSV.text_same_chunks' depends on axioms: [propext, Classical.choice, Quot.sound]
'RKSV.full_takes_last' depends on axioms: [propext, Quot.sound]
'RKSV.full_root_overridden' depends on axioms: [propext, Quot.sound]
'RKSV.full_group_overridden' depends on axioms: [propext, Quot.sound]
'RKSV.Demo.noted_accepted' depends on axioms: [propext, Classical.choice, Quot.sound]
'RKSV.Demo.twice_differs' depends on axioms: [propext, Classical.choice, Quot.sound]
'RKSV.Demo.group_twice_differs' depends on axioms: [propext, Classical.choice, Quot.sound]
'RKSV.gui_valid_once' depends on axioms: [propext, Classical.choice, Quot.sound]
'RKSV.gui_valid_partial' depends on axioms: [propext, Classical.choice, Quot.sound]
'RKSV.gui_settles' depends on axioms: [propext, Classical.choice, Quot.sound]
'RKSV.gui_outcome' depends on axioms: [propext, Classical.choice, Quot.sound]
'RKSV.gui_quiet' depends on axioms: [propext, Classical.choice, Quot.sound]
'RKSV.gui_no_key' depends on axioms: [propext, Classical.choice, Quot.sound]
'RKSV.gui_answers' depends on axioms: [propext, Classical.choice, Quot.sound]
'RKSV.gui_result' depends on axioms: [propext, Classical.choice, Quot.sound]
'RKSV.Demo.gui_race' depends on axioms: [propext, Classical.choice, Quot.sound]
'RKSV.Demo.gui_stuck' depends on axioms: [propext, Classical.choice, Quot.sound]
'RKSV.Demo.day_valid' depends on axioms: [propext, Classical.choice, Quot.sound]
'RKSV.receipt_window_opens' depends on axioms: [propext, Classical.choice, Quot.sound]
'RKSV.receipt_window_sound' depends on axioms: [propext, Classical.choice, Quot.sound]
'RKSV.receipt_window_unsigned' depends on axioms: [propext, Classical.choice, Quot.sound]
'RKSV.receipt_window_answers' depends on axioms: [propext, Classical.choice, Quot.sound]
'RKSV.receipt_window_counter' depends on axioms: [propext, Classical.choice, Quot.sound]
'RKSV.receipt_window_decrypts' depends on axioms: [propext, Classical.choice, Quot.sound]
'RKSV.receipt_window_total' depends on axioms: [propext, Classical.choice, Quot.sound]
'RKSV.Demo.second_window' depends on axioms: [propext, Classical.choice, Quot.sound]
'RKSV.Demo.second_refused' depends on axioms: [propext, Classical.choice, Quot.sound]
'RKSV.Demo.ocr_ends' depends on axioms: [propext, Classical.choice, Quot.sound]
'RKSV.keys_tab_shows' depends on axioms: [propext, Quot.sound]
'RKSV.keys_tab_messages' depends on axioms: [propext, Quot.sound]
'RKSV.keys_tab_total' depends on axioms: [propext, Classical.choice, Quot.sound]
'RKSV.keys_tab_trust' depends on axioms: [propext, Quot.sound]
'RKSV.keys_tab_export_partial' depends on axioms: [propext, Classical.choice, Quot.sound]
'RKSV.Demo.tab_shown' depends on axioms: [propext, Classical.choice, Quot.sound]
'RKSV.Demo.export_merges' depends on axioms: [propext, Classical.choice, Quot.sound]
'RKSV.Demo.import_ends' depends on axioms: [propext, Classical.choice, Quot.sound]
'RKSV.exception_arrives_partial' depends on axioms: [propext, Quot.sound]
'RKSV.exception_names_receipt' depends on axioms: [propext, Quot.sound]
'RKSV.duplicate_names_id' depends on axioms: [propext, Quot.sound]
'RKSV.own_class' depends on axioms: [propext]
'RKSV.exception_lost' depends on axioms: [propext, Quot.sound]
'RKSV.lost_iff' depends on axioms: [propext, Quot.sound]
'RKSV.verifier_arrives' depends on axioms: [propext, Quot.sound]
'RKSV.tool_ends_partial' depends on axioms: [propext, Classical.choice, Quot.sound]
'RKSV.tool_hangs' depends on axioms: [propext, Classical.choice, Quot.sound]
'RKSV.empty_key_hangs' depends on axioms: [propext, Classical.choice, Quot.sound]
'RKSV.empty_key_reported' depends on axioms: [propext, Classical.choice, Quot.sound]
'RKSV.Demo.day_two_processes' depends on axioms: [propext, Classical.choice, Quot.sound]
'RKSV.url_tool_iff' depends on axioms: [propext, Classical.choice, Quot.sound]
'RKSV.url_tool_stops' depends on axioms: [propext, Classical.choice, Quot.sound]
'RKSV.verify_url_tool' depends on axioms: [propext, Classical.choice, Quot.sound]
'RKSV.verify_url_tool_stops' depends on axioms: [propext, Classical.choice, Quot.sound]
'RKSV.hosted_urls_convert' depends on axioms: [propext, Classical.choice, Quot.sound]
'RKSV.hosted_urls_verify' depends on axioms: [propext, Classical.choice, Quot.sound]
'RKSV.time_text_iff' depends on axioms: [propext, Classical.choice, Quot.sound]
'RKSV.receipt_time' depends on axioms: [propext, Classical.choice, Quot.sound]
'RKSV.strftime_text' depends on axioms: [propext, Classical.choice, Quot.sound]
'RKSV.time_order' depends on axioms: [propext, Classical.choice, Quot.sound]
'RKSV.earlier_iff_clock' depends on axioms: [propext, Classical.choice, Quot.sound]
'RKSV.thread_valid_once' depends on axioms: [propext, Classical.choice, Quot.sound]
'RKSV.thread_valid_partial' depends on axioms: [propext, Classical.choice, Quot.sound]
'RKSV.thread_refines' depends on axioms: [propext, Classical.choice, Quot.sound]
'RKSV.thread_result' depends on axioms: [propext, Classical.choice, Quot.sound]
'RKSV.thread_settles' depends on axioms: [propext, Classical.choice, Quot.sound]
'RKSV.survivors_any' depends on axioms: [propext, Quot.sound]
'RKSV.Demo.thread_race' depends on axioms: [propext, Classical.choice, Quot.sound]
'RKSV.Demo.thread_day' depends on axioms: [propext, Classical.choice, Quot.sound]
'RKSV.parts_complete' depends on axioms: [propext]
'RKSV.parts_interrupted_receipt' depends on axioms: [propext]
'RKSV.parts_interrupted_group' depends on axioms: [propext]
'RKSV.parts_interrupted_start' depends on axioms: [propext]
'RKSV.parts_json_iff' depends on axioms: [propext, Classical.choice, Quot.sound]
'RKSV.export_complete' depends on axioms: [propext]
'RKSV.export_json_iff' depends on axioms: [propext, Classical.choice, Quot.sound]
'RKSV.export_means' depends on axioms: [propext, Quot.sound]
'RKSV.export_means_dep' depends on axioms: [propext, Classical.choice, Quot.sound]
'RKSV.jsonText_means' depends on axioms: [propext, Quot.sound]
'RKSV.string_text_unique' depends on axioms: [propext, Classical.choice, Quot.sound]
'RKSV.export_injective' depends on axioms: [propext, Classical.choice, Quot.sound]
'RKSV.csv2json_printed' depends on axioms: [propext, Classical.choice, Quot.sound]
'RKSV.split_files' depends on axioms: [propext, Classical.choice, Quot.sound]
'RKSV.merge_printed' depends on axioms: [propext, Classical.choice, Quot.sound]
'RKSV.demo_printed' depends on axioms: [propext, Classical.choice, Quot.sound]
'RKSV.Demo.export_cut' depends on axioms: [propext]
'RKSV.Demo.export_cut_group' depends on axioms: [propext]
'RKSV.csv_printed' depends on axioms: [propext, Classical.choice, Quot.sound]
'RKSV.csv_told_apart_partial' depends on axioms: [propext, Classical.choice, Quot.sound]
'RKSV.csv_unfinished_accepted' depends on axioms: [propext, Classical.choice, Quot.sound]
'RKSV.Demo.csv_mistaken' depends on axioms: [propext, Classical.choice, Quot.sound]
'RKSV.crash_detected_partial' depends on axioms: [propext, Classical.choice, Quot.sound]
'RKSV.state_crash_partial' depends on axioms: [propext, Classical.choice, Quot.sound]
'RKSV.store_crash_partial' depends on axioms: [propext, Classical.choice, Quot.sound]
'RKSV.killed_not_json' depends on axioms: [propext, Classical.choice, Quot.sound]
'RKSV.json_prefix' depends on axioms: [propext, Classical.choice, Quot.sound]
'RKSV.crash_loses' depends on axioms: [propext, Quot.sound]
