# (property, status, theorems, note)
CLAIMS = [
("C01", "proved", ["RKSV.jws_object_round_trip"], ""),
("C02", "proved", ["RKSV.jws_string_round_trip", "RKSV.jws_written_is_reproduced", "RKSV.jws_string_malleable", "RKSV.b64Decode_eq_some_iff"], ""),
("C03", "proved", ["RKSV.qr_round_trip", "RKSV.qr_round_trip_canonical", "RKSV.qr_signature_canonical", "RKSV.Demo.qr_signature_changes"], ""),
("C04", "partial", ["RKSV.ocr_round_trip_partial", "RKSV.ocr_empty_counter_unreadable", "RKSV.ocr_python3", "RKSV.ocr_python3_own_output"],
 "The round trip fails for the accepted receipts with an empty counter text (a lone line feed); that case is proved separately."),
("C05", "partial", ["RKSV.csv_round_trip_partial", "RKSV.csv_semicolon_breaks", "RKSV.Demo.csv_whitespace_lost"],
 "The unrestricted round trip is false; the failing cases are proved as well."),
("C10", "proved", ["RKSV.payload_unambiguous", "RKSV.jws_unambiguous"], ""),
("C06", "proved", ["RKSV.parsers_fail_documented", "RKSV.ocr_fails_documented", "RKSV.Demo.every_error_occurs"],
 'For the OCR parser the AttributeError on Python 3 is an additional outcome.'),
("C07", "partial", ["RKSV.parsed_well_formed_partial", "RKSV.company_id_not_serial", "RKSV.well_formed_constructible", "RKSV.Demo.newline_in_fields", "RKSV.Demo.closed_marker_newline"],
 'The pattern checks allow one trailing line feed; the strict claim is false and the exact forms are proved.'),
("C08", "partial", ["RKSV.counter_length_partial", "RKSV.Demo.empty_counter_accepted"],
 'The claim fails for the empty counter text, which is accepted; proved for all others.'),
("C09", "proved", ["RKSV.header_pinned"],
 ''),
("C11", "proved", ["RKSV.b64_inverse", "RKSV.b64_accepted", "RKSV.b64_decoded_length"],
 ''),
("C12", "proved", ["RKSV.kind_visible", "RKSV.kind_decoded", "RKSV.kinds_disjoint"],
 ''),
("C13", "proved", ["RKSV.zero_turnover_exact", "RKSV.zero_turnover_exact_parsed"],
 ''),
("C14", "partial", ["RKSV.turnover_exact_partial", "RKSV.null_turnover", "RKSV.Demo.turnover_inexact", "RKSV.Demo.turnover_overflow"],
 'Exact within a magnitude bound; beyond it floats lose cents, proved by witness.'),
("C15", "proved", ["RKSV.counter_round_trip", "RKSV.counter_bytes", "RKSV.counter_from_bytes", "RKSV.counter_overflow", "RKSV.receipt_counter_decrypts", "RKSV.receipt_counter_errors", "RKSV.decrypted_in_range"],
 ''),
("C16", "proved", ["RKSV.keystream_reuse", "RKSV.equal_counters_visible", "RKSV.iv_reuse_is_collision"],
 ''),
("C17", "proved", ["RKSV.url_hash_form", "RKSV.url_hash_verified_iff", "RKSV.url_anchor", "RKSV.url_path", "RKSV.url_path_sound", "RKSV.url_path_complete"],
 ''),
("C18", "proved", ["RKSV.accepted_is_signed", "RKSV.receipt_accepted_iff", "RKSV.key_unique", "RKSV.Demo.mark_compared_as_text"],
 ''),
("C19", "proved", ["RKSV.signed_is_accepted", "RKSV.receipt_accepted_iff", "RKSV.unparsable_is_rejected"],
 ''),
("C20", "proved", ["RKSV.serial_renderings_match", "RKSV.serial_matches_two", "RKSV.cert_used_iff_matches", "RKSV.int_text_iff", "RKSV.serial_text_iff"],
 ''),
("C21", "proved", ["RKSV.signature_covers_fields", "RKSV.altered_receipt_needs_forgery"],
 ''),
("C22", "proved", ["RKSV.qr_same_verdict", "RKSV.qr_stays_accepted", "RKSV.qr_stays_accepted_noncanonical"],
 ''),
("C65", "proved", ["RKSV.verify_errors"],
 ''),
("C23", "proved", ["RKSV.cert_trusted_iff", "RKSV.cert_verdict_local"],
 ''),
("C24", "proved", ["RKSV.cert_error_iff", "RKSV.walk_stops_once"],
 ''),
("C47", "proved", ["RKSV.store_is_map", "RKSV.store_ids", "RKSV.store_load_errors"],
 ''),
("C48", "proved", ["RKSV.store_json_round_trip", "RKSV.store_resaved", "RKSV.store_json_aes", "RKSV.Demo.odd_id_moves"],
 ''),
("C49", "partial", ["RKSV.store_read_total_partial", "RKSV.Demo.empty_id_escapes"],
 'The full claim is false: an entry with an empty ID escapes with an IndexError, proved by witness.'),
("C50", "proved", ["RKSV.ini_id_survives_iff", "RKSV.ini_round_trip", "RKSV.ini_written"],
 ''),
("C66", "proved", ["RKSV.load_aes_key", "RKSV.load_aes_key_error"],
 ''),
("C67", "proved", ["RKSV.store_read_iff"],
 ''),
("C25", "proved", ["RKSV.group_chained"], ''),
("C26", "proved", ["RKSV.group_counter", "RKSV.sold_eq", "RKSV.sold_exact"],
 'Turnovers are those computed from the float sums; sold_exact says they are the exact cents within the magnitude bound of C14.'),
("C27", "proved", ["RKSV.group_ids_unique", "RKSV.addIds_eq"], ''),
("C28", "proved", ["RKSV.group_restore"], ''),
("C29", "proved", ["RKSV.group_same_register"], ''),
("C30", "proved", ["RKSV.group_initial"], ''),
("C31", "proved", ["RKSV.group_accepted_iff", "RKSV.reads_unique", "RKSV.saved_unique"], ''),
("C32", "proved", ["RKSV.tamper_evident"], ''),
("C33", "proved", ["RKSV.group_split", "RKSV.groups_split", "RKSV.groups_join"], ''),
("C35", "proved", ["RKSV.predicted_state", "RKSV.predicted_eq_verified", "RKSV.fresh_consistent", "RKSV.consistent_kept", "RKSV.Demo.start_guessed"],
 'start_guessed shows that the start receipt can differ for a state with a last but no start receipt.'),
("C36", "proved", ["RKSV.parallel_iff", "RKSV.parallel_verdict", "RKSV.firstFresh_of_before", "RKSV.firstFresh_of_fresh", "RKSV.Demo.pool_ok", "RKSV.Demo.first_id_differs"],
 'first_id_differs shows that the condition on the first receipt ID cannot be dropped.'),
("C37", "partial", ["RKSV.no_pool_partial", "RKSV.no_pool_rejects", "RKSV.Demo.no_pool_differs"],
 'The full claim is false: without a pool and with nprocs > 1 all packages share one set of used IDs, which is then merged with itself; proved by witness.'),
("C39", "proved", ["RKSV.failed_untouched", "RKSV.parsed_failed_untouched", "RKSV.Demo.failed_retry"], ''),
("C40", "proved", ["RKSV.ok_touched", "RKSV.parsed_ok_touched"], ''),
("C41", "proved", ["RKSV.register_lookup_iff", "RKSV.bad_index", "RKSV.no_register_after_unused", "RKSV.register_lookup_total",
        "RKSV.register_update_iff", "RKSV.register_update_bad"], ''),
("C46", "proved", ["RKSV.sorted_accepts_iff", "RKSV.sorted_increasing", "RKSV.sorted_merge", "RKSV.Demo.sorted_refuses_distinct"], ''),
("C34", "proved", ["RKSV.resume_iff", "RKSV.Demo.two_groups_one_by_one"],
 'two_groups_one_by_one shows that the condition on groups without certificates cannot be dropped.'),
("C42", "proved", ["RKSV.arbitrary_receipt", "RKSV.arbitrary_dep"], ''),
("C43", "proved", ["RKSV.arbitrary_start_receipt", "RKSV.arbitrary_start_dep"], ''),
("C44", "proved", ["RKSV.state_json_round_trip", "RKSV.state_written", "RKSV.state_json_injective"], ''),
("C45", "proved", ["RKSV.state_read_iff", "RKSV.state_read_total"], ''),
("C51", "proved", ["RKSV.dict_chunks", "RKSV.dict_chunk_sizes", "RKSV.dict_chunks_zero", "RKSV.dict_no_receipts", "RKSV.grouped_unique"], ''),
("C52", "proved", ["RKSV.dict_parts", "RKSV.Demo.parts_exceeded"],
 'parts_exceeded shows a malformed DEP that yields more chunks.'),
("C53", "proved", ["RKSV.file_eq_dict", "RKSV.file_single_chunk", "RKSV.Demo.empty_key_differs", "RKSV.Demo.dotted_key_differs"],
 'The witnesses show that the conditions on the keys cannot be dropped.'),
("C54", "proved", ["RKSV.stream_eq_dict", "RKSV.Demo.stream_no_cert", "RKSV.Demo.stream_certs_late"],
 'The witnesses show that the conditions cannot be dropped.'),
("C55", "partial", ["RKSV.dict_errors_partial", "RKSV.Demo.receipts_null"],
 'The full claim is false: receipts that are not a list of texts cause TypeError or AttributeError, proved by witness.'),
("C68", "proved", ["RKSV.stream_errors"], ''),
("C69", "proved", ["RKSV.inc_chunk_sizes"], ''),
("C38", "partial", ["RKSV.chunk_size_partial", "RKSV.chunk_size_doc_partial", "RKSV.Demo.chunk_size_matters"],
 'chunk_size_partial says exactly when both functions agree. The full claim is false: several groups without certificate are accepted or rejected depending on the chunk size, proved by witness.'),
("C56", "proved", ["RKSV.balance_ok", "RKSV.balance_empty", "RKSV.batches_cut", "RKSV.batches_failing", "RKSV.unreadable_reported", "RKSV.balance_verify"], ''),
("C70", "proved", ["RKSV.gui_verdict"], ''),
    ("C57", "partial", ["RKSV.merge_keeps_receipts", "RKSV.merge_export_partial", "RKSV.merge_export_chains_partial",
        "RKSV.merge_export_certified", "RKSV.merge_collect", "RKSV.Demo.merge_ignores_chain", "RKSV.Demo.read_out_of_order"],
     "For the exporters, which read each group before the next one, groups are merged exactly if the certificates are "
     "equal: the chain is compared with itself, so groups with different chains are merged too "
     "(Demo.merge_ignores_chain). The full property holds if equal certificates have equal chains "
     "(merge_export_chains_partial), and for a reader that collects all groups first (merge_collect). The receipts are "
     "kept in order with their certificates; for any other reading order none is lost, duplicated or given another "
     "certificate (merge_keeps_receipts), but the order can change (Demo.read_out_of_order)."),
    ("C58", "proved", ["RKSV.export_json", "RKSV.export_plain", "RKSV.export_certs_first", "RKSV.export_parse", "RKSV.export_parse_groups"],
     "For receipts that were read from any format; certificates have a non-empty encoding; the caller adds no extra "
     "element named Belege-Gruppe. The JSON text layer is not modelled."),
    ("C59", "proved", ["RKSV.split_merge", "RKSV.Rewritten.same", "RKSV.Rewritten.eq"],
     "The receipts are written anew: they read as the same receipts, and are the same texts if they were canonical. "
     "The chains are kept too without merging, or if equal certificates have equal chains."),
    ("C71", "proved", ["RKSV.split_merge_verdict", "RKSV.dep_verdict_chained", "RKSV.accept_chained", "RKSV.Demo.merging_changes_verdict"],
     "For DEPs whose groups all have certificates; without that merging can turn a rejected DEP into an accepted one "
     "(Demo.merging_changes_verdict)."),
("C63", "proved", ["RKSV.pem_cert_lines", "RKSV.pem_key_lines", "RKSV.pem_strip", "RKSV.pem_export"],
 'For bodies without line breaks; the empty body yields one empty line.'),
("C64", "proved", ["RKSV.skip_bom_bytes", "RKSV.skip_bom_text", "RKSV.skip_bom_modes", "RKSV.skip_bom_pipe"],
 'For files that can be rewound, in text and binary mode. Nothing is read from other inputs, so a byte order mark stays there (skip_bom_pipe).'),
    ("C60", "proved", ["RKSV.history_accepted"],
     "The owner's rules are RuleAbiding/SignedFor/Starts in Spec/CashReg; Demo.fractions_rejected shows that whole cents are needed."),
    ("C61", "partial", ["RKSV.register_counter_partial", "RKSV.receipt_counts", "RKSV.Demo.failed_call_counts"],
     "Holds for calls that return a receipt; a call that raises may have booked its amount already (witness failed_call_counts)."),
    ("C62", "partial", ["RKSV.receipt_reads_back", "RKSV.register_size", "RKSV.receipt_chained", "RKSV.next_receipt_chained", "RKSV.Demo.remote_answer_trusted", "RKSV.Demo.underscore_serial"],
     "Needs a serial without underscore and, for remote services, an answer that signs the request; both shown to be needed by witnesses."),
    ("C72", "proved", ["RKSV.receipt_contents", "RKSV.receipt_amounts"],
     "Whole-cent amounts up to 2^51 cents, dates of years 1000 to 9999."),
    ("C73", "partial", ["RKSV.file_accepts_iff", "RKSV.certless_accepts_iff", "RKSV.stream_accepts_only", "RKSV.stream_accepts_iff_partial", "RKSV.dict_accepts_iff_partial", "RKSV.Demo.dict_takes_keys"],
     "Proved in full for files (keys of the document are ordinary). The parser for values in memory also accepts receipts given as the "
     "characters of a text or the keys of a dictionary (Demo.dict_takes_keys), and the one for streams needs the certificates first."),
    ("C74", "partial", ["RKSV.verify_tool_modes_partial", "RKSV.verify_tool_session_partial", "RKSV.Demo.day_session", "RKSV.Demo.modes_differ"],
     "For documents with ordinary keys, receipts given as arrays, and certificates in all groups (or a single group with receipts); and for "
     "states that come from verified DEPs. Outside of this the modes differ (Demo.modes_differ, Demo.chunk_size_matters, Demo.first_id_differs)."),
    ("C75", "partial", ["RKSV.state_edit_iff", "RKSV.state_edit_spares_partial", "RKSV.state_tool_failed", "RKSV.state_session_iff", "RKSV.Demo.reset_forgets"],
     "The effect of every command and of every sequence is proved in full; that only the named register changes is false for resetCashRegister, "
     "which forgets the used receipt IDs of all registers (Demo.reset_forgets). It also refuses negative indices, which the others count from the end."),
    ("C76", "proved", ["RKSV.state_update_verified", "RKSV.certless_parse"],
     "For documents with ordinary keys and receipts given as arrays. The used receipt IDs are left as they were."),
    ("C77", "partial", ["RKSV.key_tool_session_partial", "RKSV.key_tool_step", "RKSV.key_tool_create", "RKSV.key_edit_unique", "RKSV.Demo.legacy_breaks_container"],
     "Legacy INI files are restricted to certificate IDs that are hexadecimal numbers: others are accepted, but make the container unreadable "
     "(Demo.legacy_breaks_container). The INI output describes the map if no ID contains s;, u; or g; (see C50)."),
    ("C78", "partial", ["RKSV.json2csv_iff", "RKSV.csv2json_iff", "RKSV.csv2json_empty", "RKSV.convert_round_trip_partial", "RKSV.convert_accepted", "RKSV.Demo.csv_two_for_one"],
     "The round trip needs receipts without semicolons and line breaks in their IDs, without outer white space and with usual signature texts; "
     "otherwise one receipt can turn into two others (Demo.csv_two_for_one). For acceptance the certificates of the groups must be in the key store."),
    ("C79", "partial", ["RKSV.receipt_tool_iff", "RKSV.receipt_tool_stops", "RKSV.receipt_tool_errors", "RKSV.receipt_tool_round_trip_partial"],
     "The output is characterised in full; the round trip is for receipts that survive in the other format (C03 to C05). The input format url is left out."),
    ("C80", "partial", ["RKSV.verify_receipt_tool_partial", "RKSV.verify_receipt_tool_python3"],
     "All formats except OCR under Python 3, where the first OCR code of a receipt ends the program (verify_receipt_tool_python3)."),
    ("C81", "proved", ["RKSV.host_lines_iff", "RKSV.host_dep_iff", "RKSV.url_verified_iff", "RKSV.hosted_url_verifies"],
     "The server is a function from URLs to answers."),
    ("C82", "partial", ["RKSV.cert_extract_partial", "RKSV.cert_extract_readable_partial", "RKSV.Demo.certificate_lost"],
     "For DEPs with fewer receipts than a chunk, with certificates before receipts in the groups, or chunk size 0; otherwise certificates can be lost (Demo.certificate_lost)."),
    ("C83", "proved", ["RKSV.verify_tool_rules", "RKSV.verify_tool_rules_new", "RKSV.dep_accepted_iff", "RKSV.dep_history", "RKSV.Demo.dep_day_accepted"],
     "For documents and states as in C74 (ordinary keys, receipts as arrays, certificates unless there is one group; states written by verify.py). "
     "dep_accepted_iff for one process and chunk size 0 has no such restriction."),
    ("C84", "proved", ["RKSV.register_session", "RKSV.register_new"],
     "Certificates may be missing if a DEP has one group; amounts and dates as in C72, unique-ID backend or sorted with suitable IDs (RuleAbiding)."),
    ("C85", "proved", ["RKSV.cluster_session", "RKSV.Demo.lives_good"],
     "As C84. Each DEP of a register is verified before those of the next."),
    ("C86", "proved", ["RKSV.receipt_made_iff", "RKSV.run_made_iff", "RKSV.Demo.orders_possible"],
     "For amounts in whole cents (C72) and dates from the year 1000 on."),
    ("C87", "proved", ["RKSV.demo_accepted", "RKSV.demo_runs", "RKSV.Demo.draws", "RKSV.Demo.closed_has_key"],
     "Signature devices given by a key pair; the mode of demo.py with the remote service is not modelled. Reading the command line and "
     "the key files is not modelled either."),
    ("C88", "proved", ["RKSV.fleet_session", "RKSV.Demo.side_members"],
     "As C84. With sorted IDs the IDs have to increase in the order the DEPs are verified in (FreshIds)."),
    ("C89", "proved", ["RKSV.run_test_accepted", "RKSV.runTestFull_plain", "RKSV.Demo.side_runs", "RKSV.Demo.side_abides", "RKSV.Demo.side_keys", "RKSV.Demo.open_runs", "RKSV.Demo.open_abides", "RKSV.Demo.open_keys"],
     "For specifications without override elements; runTestFull_plain carries it over to the full model of C93. Open systems with certificates in the key store need devices without a chain or groups with certificates."),
    ("C90", "partial", ["RKSV.test_turnovers", "RKSV.test_starts", "RKSV.test_links_partial", "RKSV.test_registers_partial", "RKSV.Demo.wrong_register"],
     "References to the last DEP of the same register are right if every register is started after a DEP of the one started before; "
     "otherwise they can be wrong (Demo.wrong_register)."),
    ("C91", "proved", ["RKSV.split_ends_iff", "RKSV.merge_ends_iff", "RKSV.json2csv_ends_iff", "RKSV.host_starts_iff", "RKSV.cert_extract_ends_iff", "RKSV.state_update_refused", "RKSV.verify_tool_accepts_only"],
     "For documents with ordinary keys (PlainDoc). verify.py without chunks takes receipts given as a text or dictionary apart, so these are excluded there."),
    ("C92", "proved", ["RKSV.group_refused_iff", "RKSV.faultless_iff", "RKSV.later_group_iff", "RKSV.dep_refused_iff", "RKSV.verify_tool_reports", "RKSV.Demo.gap_refused", "RKSV.Demo.twice_refused", "RKSV.Demo.late_refused", "RKSV.Demo.alone_refused", "RKSV.Demo.counter_refused", "RKSV.Demo.gapDoc_refused", "RKSV.Demo.mode_reports"],
     "For one process without chunks; other modes may report another exception if there are several faults (Demo.mode_reports)."),
    ("C93", "proved", ["RKSV.test_contents", "RKSV.Demo.falsified_runs"],
     "Specifications that override the text of a receipt with the empty text are excluded."),
    ("C94", "proved", ["RKSV.falsified_refused", "RKSV.falsified_unreadable", "RKSV.receiptWith_empty", "RKSV.Demo.met_chain", "RKSV.Demo.met_amounts", "RKSV.Demo.met_counter", "RKSV.Demo.met_date", "RKSV.Demo.met_register", "RKSV.Demo.met_receipt", "RKSV.Demo.chain_falsified"],
     "One property is falsified at a time, in a receipt a working device signs; histories as in C72."),
    ("C95", "proved", ["RKSV.test_case_passes_iff", "RKSV.test_case_accepted", "RKSV.test_case_refused", "RKSV.test_case_expects_too_much", "RKSV.cents_exact", "RKSV.Demo.side_passes", "RKSV.Demo.open_fails", "RKSV.Demo.chain_passes"],
     "Right test cases are without override elements. Expectations about the message or the receipt of an exception are not modelled."),
    ("C96", "proved", ["RKSV.test_falsified_refused", "RKSV.test_unreadable_refused", "RKSV.test_falsified_driver", "RKSV.test_unreadable_driver", "RKSV.test_falsified_verdict", "RKSV.test_unreadable_verdict", "RKSV.Demo.unchained_meets", "RKSV.Demo.unchained_passes", "RKSV.Demo.three_abides", "RKSV.Demo.three_runs", "RKSV.Demo.unchained_runs"],
     "One property is falsified, in a receipt a working device signs; which values count as falsified is as in C94 (Announced). When the driver verifies with parsers and processes, receipts after the falsified one may lead to another exception."),
    ("C97", "proved", ["RKSV.text_accepted_iff", "RKSV.text_certless_iff", "RKSV.text_stream_only", "RKSV.text_same_chunks", "RKSV.full_takes_last", "RKSV.full_root_overridden", "RKSV.full_group_overridden", "RKSV.Demo.noted_accepted", "RKSV.Demo.twice_differs", "RKSV.Demo.group_twice_differs"],
     "For texts whose root has neither empty keys nor keys with dots (PlainKeys). The parser for streams accepts no other texts, but not all of these (C73)."),
    ("C98", "partial", ["RKSV.gui_valid_once", "RKSV.gui_valid_partial", "RKSV.gui_settles", "RKSV.gui_outcome", "RKSV.gui_quiet", "RKSV.gui_no_key", "RKSV.gui_answers", "RKSV.gui_result", "RKSV.Demo.gui_race", "RKSV.Demo.gui_stuck", "RKSV.Demo.day_valid"],
     "That the verdict is about the DEP shown needs that users wait for outstanding answers (Patient); without this it is false: Demo.gui_race. With an AES key of wrong length the tool never answers: Demo.gui_stuck."),
    ("C99", "proved", ["RKSV.receipt_window_opens", "RKSV.receipt_window_sound", "RKSV.receipt_window_unsigned", "RKSV.receipt_window_answers", "RKSV.receipt_window_counter", "RKSV.receipt_window_decrypts", "RKSV.receipt_window_total", "RKSV.Demo.second_window", "RKSV.Demo.second_refused", "RKSV.Demo.ocr_ends"],
     "Answers of the server of another form than {'code': text} are not modelled. Windows opened from the tab for DEPs are not modelled (under Python 3 there are none)."),
    ("C100", "partial", ["RKSV.keys_tab_shows", "RKSV.keys_tab_messages", "RKSV.keys_tab_total", "RKSV.keys_tab_trust", "RKSV.keys_tab_export_partial", "RKSV.Demo.tab_shown", "RKSV.Demo.export_merges", "RKSV.Demo.import_ends"],
     "Importing a JSON value that is no container ends the application, always (keys_tab_total, Demo.import_ends). The round trip of export and import needs that IDs of certificates in containers imported before are unsigned hexadecimal numbers; otherwise certificates can be lost: Demo.export_merges."),
    ("C101", "partial", ["RKSV.exception_arrives_partial", "RKSV.exception_names_receipt", "RKSV.duplicate_names_id", "RKSV.own_class", "RKSV.exception_lost", "RKSV.lost_iff", "RKSV.verifier_arrives", "RKSV.tool_ends_partial", "RKSV.tool_hangs", "RKSV.empty_key_hangs", "RKSV.empty_key_reported", "RKSV.Demo.day_two_processes"],
     "False for the exception for invalid keys, which cannot be restored (exception_lost): with several processes and an empty AES key in the container the tool never ends (tool_hangs, Demo.day_two_processes). Proved for all other exceptions and for AES keys of 32 bytes or none."),
    ("C102", "proved", ["RKSV.url_tool_iff", "RKSV.url_tool_stops", "RKSV.verify_url_tool", "RKSV.verify_url_tool_stops", "RKSV.hosted_urls_convert", "RKSV.hosted_urls_verify"],
     "The server is a function from URLs to answers; a server that changes its answers and answers that are JSON but not text are not modelled. For receipt_host.py the receipts must be canonical texts, and different receipts must have different hashes (of several receipts with one hash the last is served, see C81)."),
    ("C103", "proved", ["RKSV.time_text_iff", "RKSV.receipt_time", "RKSV.strftime_text", "RKSV.time_order", "RKSV.earlier_iff_clock"],
     "time_text_iff is about texts of ASCII characters; Python also accepts other decimal digits in some places, for which receipt_time says that the time is on the calendar."),
    ("C104", "partial", ["RKSV.thread_valid_once", "RKSV.thread_valid_partial", "RKSV.thread_refines", "RKSV.thread_result", "RKSV.thread_settles", "RKSV.survivors_any", "RKSV.Demo.thread_race", "RKSV.Demo.thread_day"],
     "That the verdict is about the DEP shown needs that the button is pressed only when no thread and no callback of an earlier verification is left (Rested). That no callback waits, which is enough on the desktop (C98), is not: Demo.thread_race."),
    ("C105", "proved", ["RKSV.parts_complete", "RKSV.parts_interrupted_receipt", "RKSV.parts_interrupted_group", "RKSV.parts_interrupted_start", "RKSV.parts_json_iff", "RKSV.export_complete", "RKSV.export_json_iff", "RKSV.export_means", "RKSV.export_means_dep", "RKSV.jsonText_means", "RKSV.string_text_unique", "RKSV.export_injective", "RKSV.csv2json_printed", "RKSV.split_files", "RKSV.merge_printed", "RKSV.demo_printed", "RKSV.Demo.export_cut", "RKSV.Demo.export_cut_group"],
     "The separators are those of Python 3. Buffering of the output by Python and the system is not modelled; for processes killed from outside see C107 (killed_not_json)."),
    ("C106", "partial", ["RKSV.csv_printed", "RKSV.csv_told_apart_partial", "RKSV.csv_unfinished_accepted", "RKSV.Demo.csv_mistaken"],
     "Complete files end with a line break and interrupted ones do not, but csv2json does not look at it: it accepts every interrupted file whose rows are receipts (csv_unfinished_accepted, Demo.csv_mistaken)."),
    ("C107", "partial", ["RKSV.crash_detected_partial", "RKSV.state_crash_partial", "RKSV.store_crash_partial", "RKSV.killed_not_json", "RKSV.json_prefix", "RKSV.crash_loses"],
     "That the file has the old or the new contents is false: it is emptied first (crash_loses). Proved: anything else it can contain is no JSON text. What a file system does to a file after a power failure beyond cutting it off is not modelled."),
]
