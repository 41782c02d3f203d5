{
 "claims": [
  {
   "property": "C01",
   "status": "partial",
   "theorems": [
    "Imageio.Props.C01_transferred_is_size_of_union",
    "Imageio.Props.C01_sum_is_size_of_union",
    "Imageio.Props.C01_reversed_range_breaks_report"
   ],
   "note": "Partial: proved for tickets that are not canceled; operations ending on a canceled ticket are not recorded (C39)."
  },
  {
   "property": "C02",
   "status": "partial",
   "theorems": [
    "Imageio.Props.C02_order_independent",
    "Imageio.Props.C02_retransmission",
    "Imageio.Props.C02_disjoint_with_gaps",
    "Imageio.Props.C02_canonical",
    "Imageio.Props.C02_shortest",
    "Imageio.Props.C02_empty_operations_are_stored"
   ],
   "note": "Partial: the canonical and shortest list is proved for operations that transferred at least one byte; an operation that transferred nothing is stored as an empty range (C02_empty_operations_are_stored), so the stored list is not the shortest one then. Order and retransmission have no such restriction on the reported value."
  },
  {
   "property": "C03",
   "status": "proved",
   "theorems": [
    "Imageio.Props.C03_authorize_iff",
    "Imageio.Props.C03_refused_has_no_effect",
    "Imageio.Props.C03_no_use_without_authorization"
   ],
   "note": ""
  },
  {
   "property": "C04",
   "status": "partial",
   "theorems": [
    "Imageio.Props.C04_removed_ticket_is_dead",
    "Imageio.Props.C04_not_listed_when_answered"
   ],
   "note": "Partial: proved for a non-zero removal timeout (the default is 60 seconds) and a ticket id that is not added again meanwhile; false otherwise. Violations shown by: Imageio.Props.C04_counterexample_zero_timeout, Imageio.Props.C04_counterexample_replaced_ticket, Imageio.Props.C04_counterexample_clear"
  },
  {
   "property": "C05",
   "status": "proved",
   "theorems": [
    "Imageio.Props.C05_timeout_keeps_canceled_ticket",
    "Imageio.Props.C05_nothing_closed_while_running",
    "Imageio.Props.C05_retry_succeeds"
   ],
   "note": ""
  },
  {
   "property": "C06",
   "status": "partial",
   "theorems": [
    "Imageio.Props.C06_removed_ticket_released",
    "Imageio.Props.C06_late_backend_closed",
    "Imageio.Props.C06_not_closed_while_used"
   ],
   "note": "Partial: proved for a non-zero removal timeout (the default is 60 seconds). The counterexample is outside of the statement: a backend used without an operation may be closed meanwhile. Violations shown by: Imageio.Props.C06_counterexample_use_outside_operation"
  },
  {
   "property": "C07",
   "status": "partial",
   "theorems": [
    "Imageio.Props.C07_usable_before_expiration",
    "Imageio.Props.C07_expiration_changes",
    "Imageio.Props.C07_completed_operation_touches",
    "Imageio.Props.C07_touch_moves_expiration",
    "Imageio.Props.C07_extend_makes_usable",
    "Imageio.Props.C07_new_ticket_usable",
    "Imageio.Props.C07_unused_ticket_refused"
   ],
   "note": "Partial: that a completed operation moves the expiration is proved for tickets that are not canceled. The counterexample is not against the statement, but shows that an operation may shorten the extension given by a PATCH. Violations shown by: Imageio.Props.C07_counterexample_operation_undoes_extension"
  },
  {
   "property": "C08",
   "status": "proved",
   "theorems": [
    "Imageio.Props.C08_put_exact",
    "Imageio.Props.C08_put_succeeds"
   ],
   "note": ""
  },
  {
   "property": "C09",
   "status": "proved",
   "theorems": [
    "Imageio.Props.C09_write_exact",
    "Imageio.Props.C09_write_failed",
    "Imageio.Props.C09_aligned",
    "Imageio.Props.C09_put_exact"
   ],
   "note": ""
  },
  {
   "property": "C10",
   "status": "proved",
   "theorems": [
    "Imageio.Props.C10_never_success",
    "Imageio.Props.C10_prefix_stored",
    "Imageio.Props.C10_operation_error"
   ],
   "note": ""
  },
  {
   "property": "C11",
   "status": "proved",
   "theorems": [
    "Imageio.Props.C11_get_exact",
    "Imageio.Props.C11_get_succeeds",
    "Imageio.Props.C11_unsatisfiable_refused",
    "Imageio.Props.C11_read_only"
   ],
   "note": "The counterexample is about an empty open range, which is not a valid range. Violations shown by: Imageio.Props.C11_counterexample_empty_range"
  },
  {
   "property": "C12",
   "status": "partial",
   "theorems": [
    "Imageio.Props.C12_put_within",
    "Imageio.Props.C12_put_refused",
    "Imageio.Props.C12_get_within_partial",
    "Imageio.Props.C12_patch_within",
    "Imageio.Props.C12_zero_refused"
   ],
   "note": "Partial: open ranges starting after the ticket size are not refused. Checksum requests ignore the size of the ticket: Imageio.Props.C44_counterexample_ticket_size. Violations shown by: Imageio.Props.C12_counterexample_open_range"
  },
  {
   "property": "C13",
   "status": "proved",
   "theorems": [
    "Imageio.Props.C13_zero_exact",
    "Imageio.Props.C13_zero_succeeds"
   ],
   "note": ""
  },
  {
   "property": "C14",
   "status": "proved",
   "theorems": [
    "Imageio.Props.C14_put_flushed",
    "Imageio.Props.C14_flush_request",
    "Imageio.Props.C14_flush_succeeds"
   ],
   "note": ""
  },
  {
   "property": "C15",
   "status": "proved",
   "theorems": [
    "Imageio.Props.C15_last_write",
    "Imageio.Props.C15_last_total",
    "Imageio.Props.C15_last_unique",
    "Imageio.Props.C15_download"
   ],
   "note": ""
  },
  {
   "property": "C16",
   "status": "partial",
   "theorems": [
    "Imageio.Props.C16_parse_iff",
    "Imageio.Props.C16_round_trip",
    "Imageio.Props.C16_client_range"
   ],
   "note": "Partial: the formats are parsed back exactly; the suffix range bytes=-0 and an empty read are handled wrongly. Violations shown by: Imageio.Props.C16_counterexample_empty_suffix, Imageio.Props.C16_counterexample_empty_read"
  },
  {
   "property": "C17",
   "status": "partial",
   "theorems": [
    "Imageio.Props.C17_parse_iff",
    "Imageio.Props.C17_client_round_trip",
    "Imageio.Props.C17_server_round_trip",
    "Imageio.Props.C17_invalid_refused"
   ],
   "note": "Partial: proved for non-empty ranges; the headers of empty ranges are malformed. Violations shown by: Imageio.Props.C17_counterexample_empty_write, Imageio.Props.C17_counterexample_empty_response"
  },
  {
   "property": "C18",
   "status": "proved",
   "theorems": [
    "Imageio.Props.C18_reads_prefix_of_body",
    "Imageio.Props.C18_whole_body"
   ],
   "note": ""
  },
  {
   "property": "C19",
   "status": "partial",
   "theorems": [
    "Imageio.Props.C19_in_sync_partial",
    "Imageio.Props.C19_failure_closes_unread"
   ],
   "note": "Violations shown by: Imageio.Props.C19_counterexample_unread_body, Imageio.Props.C19_counterexample_chunked, Imageio.Props.C19_counterexample_invalid_length"
  },
  {
   "property": "C20",
   "status": "partial",
   "theorems": [
    "Imageio.Props.C20_zero_tiles",
    "Imageio.Props.C20_dirty_tiles",
    "Imageio.Props.C20_zero_unique",
    "Imageio.Props.C20_plain_tiles",
    "Imageio.Props.C20_zero_reported",
    "Imageio.Props.C20_dirty_reported",
    "Imageio.Props.C20_zero_block",
    "Imageio.Props.C20_wire"
   ],
   "note": "Partial: holds for every non-empty image. For an empty export the NBD backend raises AttributeError (nbdutil.extents yields None), and the file and memory backends report an empty extent. A server that announces 0 as its minimum block size gets no extents (C20_zero_block). Violations shown by: Imageio.Props.C20_counterexample_empty"
  },
  {
   "property": "C21",
   "status": "proved",
   "theorems": [
    "Imageio.Props.C21_merged_bytes",
    "Imageio.Props.C21_shortest",
    "Imageio.Props.C21_split_independent",
    "Imageio.Props.C21_zero_flags",
    "Imageio.Props.C21_dirty_flags"
   ],
   "note": ""
  },
  {
   "property": "C22",
   "status": "partial",
   "theorems": [
    "Imageio.Props.C22_image",
    "Imageio.Props.C22_content_only",
    "Imageio.Props.C22_plain_file",
    "Imageio.Props.C22_nbd_valid",
    "Imageio.Props.C22_plain_valid"
   ],
   "note": "Partial: for every backend that satisfies the storage laws and does not return short reads inside the image (instances: memory, NBD, files and devices when the kernel reads fully). With a short read the checksum is wrong (C22_counterexample_short_read). The plain file function checksum() is proved for any pattern of short reads. Violations shown by: Imageio.Props.C22_counterexample_short_read"
  },
  {
   "property": "C23",
   "status": "proved",
   "theorems": [
    "Imageio.Props.C23_tiles",
    "Imageio.Props.C23_sizes",
    "Imageio.Props.C23_zero"
   ],
   "note": ""
  },
  {
   "property": "C24",
   "status": "proved",
   "theorems": [
    "Imageio.Props.C24_is_zero"
   ],
   "note": ""
  },
  {
   "property": "C25",
   "status": "proved",
   "theorems": [
    "Imageio.Props.C25_encoding",
    "Imageio.Props.C25_length",
    "Imageio.Props.C25_decodable",
    "Imageio.Props.C25_layout",
    "Imageio.Props.C25_refused",
    "Imageio.Props.C25_sent",
    "Imageio.Props.C25_not_sent",
    "Imageio.Props.C25_negative",
    "Imageio.Props.C25_unsupported",
    "Imageio.Props.C25_disconnect",
    "Imageio.Props.C25_session"
   ],
   "note": "Every command of the client (nbd.py 1258-1350) and every request method. The bytes are a spec of the protocol written independently (Spec/Nbd.lean)."
  },
  {
   "property": "C26",
   "status": "proved",
   "theorems": [
    "Imageio.Props.C26_read",
    "Imageio.Props.C26_simple",
    "Imageio.Props.C26_incomplete_accepted",
    "Imageio.Props.C26_outside_misread"
   ],
   "note": "For all legal replies of the protocol, any packets, any bytes after the reply. C26_incomplete_accepted and C26_outside_misread show that the client does not check illegal replies (missing parts, chunks out of the range)."
  },
  {
   "property": "C27",
   "status": "proved",
   "theorems": [
    "Imageio.Props.C27_session",
    "Imageio.Props.C27_error_offset",
    "Imageio.Props.C27_error_chunk",
    "Imageio.Props.C27_simple",
    "Imageio.Props.C27_handle",
    "Imageio.Props.C27_type",
    "Imageio.Props.C27_length",
    "Imageio.Props.C27_context",
    "Imageio.Props.C27_magic",
    "Imageio.Props.C27_ends",
    "Imageio.Props.C27_truncated"
   ],
   "note": "Sessions of any length (C27_session): every request gets the result of its own answer. Also: unknown chunk types, truncated replies, replies that were not negotiated. Errors of the socket itself are not modelled."
  },
  {
   "property": "C28",
   "status": "partial",
   "theorems": [
    "Imageio.Props.C28_handler_copy",
    "Imageio.Props.C28_handler_failed",
    "Imageio.Props.C28_handler_zero",
    "Imageio.Props.C28_bytes",
    "Imageio.Props.C28_copy",
    "Imageio.Props.C28_empty_destination",
    "Imageio.Props.C28_holes",
    "Imageio.Props.C28_outside"
   ],
   "note": "Partial: proved for storage that reads and writes completely; C28_handler_counterexample_short_read shows that it is false otherwise. For every schedule of the workers and every pattern of failures. The calls of the workers to the storage are atomic and complete, as the code assumes (_io.py 363, 390); C28_handler_* show that the handlers do this for storage that reads and writes completely. Violations shown by: Imageio.Props.C28_handler_counterexample_short_read"
  },
  {
   "property": "C29",
   "status": "proved",
   "theorems": [
    "Imageio.Props.C29_bytes",
    "Imageio.Props.C29_untouched",
    "Imageio.Props.C29_incremental"
   ],
   "note": ""
  },
  {
   "property": "C30",
   "status": "proved",
   "theorems": [
    "Imageio.Props.C30_split",
    "Imageio.Props.C30_empty",
    "Imageio.Props.C30_small",
    "Imageio.Props.C30_count",
    "Imageio.Props.C30_covers",
    "Imageio.Props.C30_submitted",
    "Imageio.Props.C30_buffer"
   ],
   "note": ""
  },
  {
   "property": "C31",
   "status": "proved",
   "theorems": [
    "Imageio.Props.C31_fifo",
    "Imageio.Props.C31_lossless",
    "Imageio.Props.C31_bounded",
    "Imageio.Props.C31_put_keeps",
    "Imageio.Props.C31_get_oldest",
    "Imageio.Props.C31_wait_keeps"
   ],
   "note": ""
  },
  {
   "property": "C32",
   "status": "partial",
   "theorems": [
    "Imageio.Props.C32_consumer_not_stranded",
    "Imageio.Props.C32_producer_not_stranded",
    "Imageio.Props.C32_get_wakes_producer",
    "Imageio.Props.C32_no_deadlock"
   ],
   "note": "Partial: proved for at most as many waiting consumers as the bound of the queue. With more consumers the single notify of get() and put() may wake the wrong thread and everything blocks; the same happens in a copy with 33 workers and the queue depth of 32. Violations shown by: Imageio.Props.C32_executor_counterexample, Imageio.Props.C32_many_consumers_counterexample"
  },
  {
   "property": "C33",
   "status": "proved",
   "theorems": [
    "Imageio.Props.C33_joined",
    "Imageio.Props.C33_failed",
    "Imageio.Props.C33_closes",
    "Imageio.Props.C33_success",
    "Imageio.Props.C33_no_deadlock",
    "Imageio.Props.C33_terminates",
    "Imageio.Props.C33_ends"
   ],
   "note": "Termination is for fair schedules: every step decreases a measure, and no reachable state of a running copy is stuck (workers at most the queue depth)."
  },
  {
   "property": "C34",
   "status": "proved",
   "theorems": [
    "Imageio.Props.C34_copy",
    "Imageio.Props.C34_dirty",
    "Imageio.Props.C34_bound",
    "Imageio.Props.C34_bound_dirty",
    "Imageio.Props.C34_monotone"
   ],
   "note": ""
  },
  {
   "property": "C35",
   "status": "proved",
   "theorems": [
    "Imageio.Props.C35_zero_dict",
    "Imageio.Props.C35_dirty_dict",
    "Imageio.Props.C35_zero",
    "Imageio.Props.C35_dirty",
    "Imageio.Props.C35_answers",
    "Imageio.Props.C35_refused",
    "Imageio.Props.C35_old_server"
   ],
   "note": "json.dumps and json.loads are parameters with the hypothesis that text is read back as it was written; everything else is modelled."
  },
  {
   "property": "C36",
   "status": "proved",
   "theorems": [
    "Imageio.Props.C36_allow",
    "Imageio.Props.C36_features",
    "Imageio.Props.C36_limits",
    "Imageio.Props.C36_refused",
    "Imageio.Props.C36_star",
    "Imageio.Props.C36_header"
   ],
   "note": "For every state of the server and every list of permissions. The capabilities for a ticket are compared with the decision of authorize at the same time."
  },
  {
   "property": "C37",
   "status": "partial",
   "theorems": [
    "Imageio.Props.C37_first_match",
    "Imageio.Props.C37_not_found",
    "Imageio.Props.C37_unknown_method",
    "Imageio.Props.C37_one_status",
    "Imageio.Props.C37_error_status",
    "Imageio.Props.C37_image_resources",
    "Imageio.Props.C37_table_dispatch",
    "Imageio.Props.C37_methods",
    "Imageio.Props.C37_query",
    "Imageio.Props.C37_query_last"
   ],
   "note": "Partial: one status for every request, except a request with an invalid Content-Length to an unknown path. Violations shown by: Imageio.Props.C37_counterexample_no_status"
  },
  {
   "property": "C38",
   "status": "partial",
   "theorems": [
    "Imageio.Props.C38_parse_iff",
    "Imageio.Props.C38_installed",
    "Imageio.Props.C38_refused",
    "Imageio.Props.C38_bad_request",
    "Imageio.Props.C38_accepted",
    "Imageio.Props.C38_documented_partial",
    "Imageio.Props.C38_other_id"
   ],
   "note": "Partial: exactly the documents of Spec.Tickets.Valid are installed, everything else changes nothing and is refused. Booleans are accepted for integers and negative sizes are accepted (counterexamples), so the documented types are proved for documents without booleans. The part of urlsplit that validates the netloc is a parameter; the JSON parser is that of C80. Violations shown by: Imageio.Props.C38_counterexample_bool, Imageio.Props.C38_counterexample_negative"
  },
  {
   "property": "C39",
   "status": "partial",
   "theorems": [
    "Imageio.Props.C39_progress_monotone_partial",
    "Imageio.Props.C39_progress_bounded",
    "Imageio.Props.C39_canceled_progress_goes_back"
   ],
   "note": "Partial: proved for tickets that are not canceled; false for a canceled ticket that is still listed (Imageio.Props.C39_canceled_progress_goes_back)."
  },
  {
   "property": "C40",
   "status": "partial",
   "theorems": [
    "Imageio.Props.C40_size_iff",
    "Imageio.Props.C40_documented",
    "Imageio.Props.C40_bounds",
    "Imageio.Props.C40_others_refused_partial",
    "Imageio.Props.C40_str_partial"
   ],
   "note": "Partial: the accepted strings are characterized exactly (C40_size_iff). Python integers with underscores, signs and spaces are accepted too (C40_counterexample_loose). str() of a size loses the value for 1024 TiB and more. Violations shown by: Imageio.Props.C40_counterexample_loose, Imageio.Props.C40_counterexample_str"
  },
  {
   "property": "C41",
   "status": "partial",
   "theorems": [
    "Imageio.Props.C41_unix_partial",
    "Imageio.Props.C41_tcp_partial",
    "Imageio.Props.C41_nice",
    "Imageio.Props.C41_scheme",
    "Imageio.Props.C41_http",
    "Imageio.Props.C41_scheme_case",
    "Imageio.Props.C41_file_partial"
   ],
   "note": "Partial: for the export names and paths that the syntax of the URL can express; the counterexamples are names for which the generated URL denotes another address. Violations shown by: Imageio.Props.C41_counterexample_file, Imageio.Props.C41_counterexample_export_port, Imageio.Props.C41_counterexample_query, Imageio.Props.C41_counterexample_path_colon, Imageio.Props.C41_counterexample_relative"
  },
  {
   "property": "C42",
   "status": "proved",
   "theorems": [
    "Imageio.Props.C42_round_trip",
    "Imageio.Props.C42_brackets",
    "Imageio.Props.C42_injective",
    "Imageio.Props.C42_unquoted",
    "Imageio.Props.C42_not_idempotent"
   ],
   "note": ""
  },
  {
   "property": "C43",
   "status": "partial",
   "theorems": [
    "Imageio.Props.C43_names",
    "Imageio.Props.C43_values",
    "Imageio.Props.C43_effective_unique",
    "Imageio.Props.C43_error_iff",
    "Imageio.Props.C43_duplicate",
    "Imageio.Props.C43_failed",
    "Imageio.Props.C43_file_order",
    "Imageio.Props.C43_load_config",
    "Imageio.Props.C43_last_file_partial"
   ],
   "note": "Partial: every option of every section is characterized by C43_values. With a DEFAULT section in a file the options of other sections change (C43_counterexample_default). Violations shown by: Imageio.Props.C43_counterexample_default"
  },
  {
   "property": "C44",
   "status": "partial",
   "theorems": [
    "Imageio.Props.C44_block_size",
    "Imageio.Props.C44_block_size_used",
    "Imageio.Props.C44_block_size_refused",
    "Imageio.Props.C44_block_size_default",
    "Imageio.Props.C44_exact_partial",
    "Imageio.Props.C44_response",
    "Imageio.Props.C44_canceled",
    "Imageio.Props.C44_served"
   ],
   "note": "Partial: the checksum covers exactly the image of the backend; the size of the ticket is ignored (C44_counterexample_ticket_size). A file with unaligned size cannot be checksummed (C44_counterexample_unaligned_size). Violations shown by: Imageio.Props.C44_counterexample_ticket_size, Imageio.Props.C44_counterexample_unaligned_size"
  },
  {
   "property": "C45",
   "status": "partial",
   "theorems": [
    "Imageio.Props.C45_bytes",
    "Imageio.Props.C45_outside",
    "Imageio.Props.C45_in_flight",
    "Imageio.Props.C45_progress",
    "Imageio.Props.C45_failure",
    "Imageio.Props.C45_buffers",
    "Imageio.Props.C45_no_deadlock_partial",
    "Imageio.Props.C45_stuck",
    "Imageio.Props.C45_no_deadlock_data",
    "Imageio.Props.C45_terminates",
    "Imageio.Props.C45_ends",
    "Imageio.Props.C45_extents"
   ],
   "note": "Partial: the bytes are proved for every interleaving of the reader and the writer, every queue depth, and every failure. After a failure of the writer the reader may block forever in requests.put (C45_counterexample_deadlock, for every queue depth); this cannot happen for images without zero extents. The calls of the NBD clients are complete when they return, as proved in C25-C27. Violations shown by: Imageio.Props.C45_counterexample_deadlock, Imageio.Props.C45_counterexample_leaked_writer, Imageio.Props.C45_counterexample_empty"
  },
  {
   "property": "C46",
   "status": "partial",
   "theorems": [
    "Imageio.Props.C46_file_stored",
    "Imageio.Props.C46_file_untouched",
    "Imageio.Props.C46_file_result",
    "Imageio.Props.C46_file_succeeds",
    "Imageio.Props.C46_nbd_stored",
    "Imageio.Props.C46_no_waiting"
   ],
   "note": "Partial: false for zeroing past the end of a sparse regular file with several writers (C46_counterexample_truncate), and ranges that share a block lose data (C46_counterexample_shared_block). Block devices, NBD and regular files, sparse or not (uploads anywhere; zeroing anywhere on block devices and on files that are not sparse, and inside the file as it was before for sparse files), any number of connections, any interleaving of their system calls, with storage faults and short writes: a request that succeeded stored its bytes whatever the others did, bytes of no request are unchanged, and without faults, canceling and missing data every request succeeds. A request ends as it ends alone (C46_file_result), except zeroing past the end of a file, where the calls depend on the size of the file. Violations shown by: Imageio.Props.C46_counterexample_shared_block, Imageio.Props.C46_counterexample_truncate"
  },
  {
   "property": "C47",
   "status": "proved",
   "theorems": [
    "Imageio.Props.C47_at_most_one_more_chunk",
    "Imageio.Props.C47_canceled_operation_refused",
    "Imageio.Props.C47_write",
    "Imageio.Props.C47_zero",
    "Imageio.Props.C47_read"
   ],
   "note": "C47_write, C47_zero and C47_read are the operations themselves: a flag set while chunk n is transferred allows at most n+1 chunks, the operation does not succeed, and the reported count is exactly the prefix that reached the image."
  },
  {
   "property": "C48",
   "status": "partial",
   "theorems": [
    "Imageio.Props.C48_opened_once",
    "Imageio.Props.C48_own_backend",
    "Imageio.Props.C48_not_shared",
    "Imageio.Props.C48_closed_at_end_partial"
   ],
   "note": "Partial: closing at the end of the connection is proved when no ticket id is added twice. Violations shown by: Imageio.Props.C48_counterexample_readded_ticket"
  },
  {
   "property": "C49",
   "status": "partial",
   "theorems": [
    "Imageio.Props.C49_write_exact",
    "Imageio.Props.C49_write_succeeds",
    "Imageio.Props.C49_zero_exact",
    "Imageio.Props.C49_zero_succeeds",
    "Imageio.Props.C49_zero_emulated",
    "Imageio.Props.C49_read_exact",
    "Imageio.Props.C49_read_succeeds",
    "Imageio.Props.C49_flush_durable",
    "Imageio.Props.C49_lawful",
    "Imageio.Props.C49_size",
    "Imageio.Props.C49_upload_exact",
    "Imageio.Props.C49_download_exact",
    "Imageio.Props.C49_upload_succeeds"
   ],
   "note": "Partial: proved for the client composed with the images handler on every lawful backend, for every failure of the network; the pair is itself a lawful backend. False for empty writes, for the flush of a server without flush support after a failed write, for the size from extents when the ticket is smaller than the image, and for destinations with short writes in write_to (counterexamples). Wire parsing of http.client is not modelled; connecting is C68, and the cache of extents C69. Violations shown by: Imageio.Props.C49_counterexample_flush, Imageio.Props.C49_counterexample_empty_write, Imageio.Props.C49_counterexample_size, Imageio.Props.C49_counterexample_short_write"
  },
  {
   "property": "C50",
   "status": "proved",
   "theorems": [
    "Imageio.Props.C50_create_iff",
    "Imageio.Props.C50_create_failing",
    "Imageio.Props.C50_create_terminates",
    "Imageio.Props.C50_finalize",
    "Imageio.Props.C50_finalize_decides",
    "Imageio.Props.C50_finalize_terminates",
    "Imageio.Props.C50_disk_iff"
   ],
   "note": "The answers of the engine and the clock are arbitrary."
  },
  {
   "property": "C51",
   "status": "proved",
   "theorems": [
    "Imageio.Props.C51_close",
    "Imageio.Props.C51_raises",
    "Imageio.Props.C51_stays_closed",
    "Imageio.Props.C51_released",
    "Imageio.Props.C51_only_closed"
   ],
   "note": "Close is final, wakes every waiter, and only a closed queue raises."
  },
  {
   "property": "C52",
   "status": "proved",
   "theorems": [
    "Imageio.Props.C52_remove_missing",
    "Imageio.Props.C52_remove_twice",
    "Imageio.Props.C52_others_unaffected"
   ],
   "note": "The counterexamples are about concurrent removals. Violations shown by: Imageio.Props.C52_counterexample_concurrent_removal, Imageio.Props.C52_counterexample_new_ticket_lost"
  },
  {
   "property": "C53",
   "status": "partial",
   "theorems": [
    "Imageio.Props.C53_upload_completed",
    "Imageio.Props.C53_upload_calls",
    "Imageio.Props.C53_upload_failed",
    "Imageio.Props.C53_download"
   ],
   "note": "Partial: a download finalizes the transfer if creating it succeeded as a whole; a transfer that was added but failed to become ready is left in the engine. The copy and the engine are the environment; the copy is C28. The counterexamples are failures outside of the copy, that leave the transfer or the disk in the engine. Violations shown by: Imageio.Props.C53_counterexample_left, Imageio.Props.C53_counterexample_disk_left"
  },
  {
   "property": "C54",
   "status": "proved",
   "theorems": [
    "Imageio.Props.C54_succeeds",
    "Imageio.Props.C54_only",
    "Imageio.Props.C54_refused",
    "Imageio.Props.C54_ends",
    "Imageio.Props.C54_bitmap"
   ],
   "note": "Connecting the socket and lone surrogates in the export name are not modelled. Counterexamples: the name of a listed bitmap is not checked for its prefix; two contexts with the same id overwrite each other. Violations shown by: Imageio.Props.C54_bitmap_name_counterexample, Imageio.Props.C54_same_id_counterexample"
  },
  {
   "property": "C55",
   "status": "partial",
   "theorems": [
    "Imageio.Props.C55_upload",
    "Imageio.Props.C55_snapshot",
    "Imageio.Props.C55_snapshot_same",
    "Imageio.Props.C55_upload_disk",
    "Imageio.Props.C55_iso",
    "Imageio.Props.C55_prepare",
    "Imageio.Props.C55_download",
    "Imageio.Props.C55_download_layer",
    "Imageio.Props.C55_download_incremental",
    "Imageio.Props.C55_download_format",
    "Imageio.Props.C55_upload_connections",
    "Imageio.Props.C55_download_connections",
    "Imageio.Props.C55_proxy"
   ],
   "note": "Partial: a download opens one connection more than max_readers allows, and a download of the whole chain to an image with a backing file shows backing data in holes (counterexamples). Sparse raw disks on block storage rely on the rule of the engine (Creatable). Violations shown by: Imageio.Props.C55_counterexample_readers, Imageio.Props.C55_counterexample_backing_file, Imageio.Props.C55_counterexample_sparse"
  },
  {
   "property": "C56",
   "status": "partial",
   "theorems": [
    "Imageio.Props.C56_detect",
    "Imageio.Props.C56_usable",
    "Imageio.Props.C56_lenient",
    "Imageio.Props.C56_power_of_two",
    "Imageio.Props.C56_closed",
    "Imageio.Props.C56_clone",
    "Imageio.Props.C56_error"
   ],
   "note": "Partial: block devices are never asked, so 512 is used also on 4096 byte devices (counterexample); the error when no block size works is an AttributeError (counterexample). Violations shown by: Imageio.Props.C56_counterexample_block_device, Imageio.Props.C56_counterexample_error"
  },
  {
   "property": "C57",
   "status": "proved",
   "theorems": [
    "Imageio.Props.C57_command",
    "Imageio.Props.C57_config",
    "Imageio.Props.C57_default",
    "Imageio.Props.C57_password",
    "Imageio.Props.C57_fails",
    "Imageio.Props.C57_secure",
    "Imageio.Props.C57_transfer"
   ],
   "note": "The splitting of the command line by argparse and the ini syntax are not modelled. Empty values count as values (counterexample). Violations shown by: Imageio.Props.C57_counterexample_empty"
  },
  {
   "property": "C58",
   "status": "proved",
   "theorems": [
    "Imageio.Props.C58_lawful",
    "Imageio.Props.C58_opened",
    "Imageio.Props.C58_read",
    "Imageio.Props.C58_write",
    "Imageio.Props.C58_zero",
    "Imageio.Props.C58_flush",
    "Imageio.Props.C58_failed",
    "Imageio.Props.C58_closed",
    "Imageio.Props.C58_works",
    "Imageio.Props.C58_upload",
    "Imageio.Props.C58_download"
   ],
   "note": "The server is a parameter: any machine on bytes that satisfies Spec.Protocol; a concrete server with broken connections is proved to satisfy it (Sample.protocol, Sample.reliable). Socket errors other than the end of the stream are not modelled."
  },
  {
   "property": "C59",
   "status": "partial",
   "theorems": [
    "Imageio.Props.C59_oldest_partial",
    "Imageio.Props.C59_newest",
    "Imageio.Props.C59_policy"
   ],
   "note": "Partial: without enable_tls1_1 the minimum is TLS 1.0, not TLS 1.2 (counterexample). Violations shown by: Imageio.Props.C59_counterexample_old_version"
  },
  {
   "property": "C60",
   "status": "partial",
   "theorems": [
    "Imageio.Props.C60_failed",
    "Imageio.Props.C60_privileges",
    "Imageio.Props.C60_remote",
    "Imageio.Props.C60_local",
    "Imageio.Props.C60_control_tcp",
    "Imageio.Props.C60_control_unix",
    "Imageio.Props.C60_root_needed",
    "Imageio.Props.C60_started",
    "Imageio.Props.C60_ready",
    "Imageio.Props.C60_stopped",
    "Imageio.Props.C60_starts_partial",
    "Imageio.Props.C60_control_only"
   ],
   "note": "Partial: port 65535 and abstract control sockets are refused although valid (counterexamples); everything else is proved. Violations shown by: Imageio.Props.C60_counterexample_port, Imageio.Props.C60_counterexample_abstract"
  },
  {
   "property": "C61",
   "status": "partial",
   "theorems": [
    "Imageio.Props.C61_up",
    "Imageio.Props.C61_terminates_partial"
   ],
   "note": "Partial: a signal before start() sets running, or between the check of running and pause(), is lost (counterexample). Violations shown by: Imageio.Props.C61_counterexample_lost"
  },
  {
   "property": "C62",
   "status": "proved",
   "theorems": [
    "Imageio.Props.C62_zero",
    "Imageio.Props.C62_flags",
    "Imageio.Props.C62_dirty",
    "Imageio.Props.C62_no_bitmap",
    "Imageio.Props.C62_no_allocation",
    "Imageio.Props.C62_unchanged",
    "Imageio.Props.C62_split_independent",
    "Imageio.Props.C62_http",
    "Imageio.Props.C62_session",
    "Imageio.Props.C62_reported"
   ],
   "note": "Composition of the decoder (C27), the extents loop (C20, C21), the JSON API (C35) and the handshake (C26); the server is any machine that satisfies Protocol and Reports, and a sample server satisfies them."
  },
  {
   "property": "C63",
   "status": "partial",
   "theorems": [
    "Imageio.Props.C63_options",
    "Imageio.Props.C63_fails",
    "Imageio.Props.C63_cache",
    "Imageio.Props.C63_raw",
    "Imageio.Props.C63_qcow2",
    "Imageio.Props.C63_qcow2_range_partial",
    "Imageio.Props.C63_json_uri",
    "Imageio.Props.C63_version",
    "Imageio.Props.C63_version_first_line",
    "Imageio.Props.C63_allocation_depth"
   ],
   "note": "Partial: with an offset or size, backing_chain=False is ignored and a format other than qcow2 is exported as raw bytes. Violations shown by: Imageio.Props.C63_counterexample_chain, Imageio.Props.C63_counterexample_format"
  },
  {
   "property": "C64",
   "status": "partial",
   "theorems": [
    "Imageio.Props.C64_wait",
    "Imageio.Props.C64_sleep",
    "Imageio.Props.C64_bounded",
    "Imageio.Props.C64_body",
    "Imageio.Props.C64_stopped_partial"
   ],
   "note": "Partial: the process is left running when wait_for_socket raises another error, or when it does not end in time after SIGKILL. Violations shown by: Imageio.Props.C64_counterexample_leak"
  },
  {
   "property": "C65",
   "status": "partial",
   "theorems": [
    "Imageio.Props.C65_file_partial",
    "Imageio.Props.C65_nbd",
    "Imageio.Props.C65_one_worker",
    "Imageio.Props.C65_image_partial"
   ],
   "note": "Partial: for a file backend with more than one worker the extents have to start at multiples of the block size of the storage; otherwise data is lost (counterexample), and zeroing has to stay inside the file as it was before (always true for block devices, and for files that have the size of the image). No condition for one worker, and for NBD with block size 1. Violations shown by: Imageio.Props.C65_counterexample_shared_block"
  },
  {
   "property": "C66",
   "status": "partial",
   "theorems": [
    "Imageio.Props.C66_percent_partial",
    "Imageio.Props.C66_draws",
    "Imageio.Props.C66_last",
    "Imageio.Props.C66_copy",
    "Imageio.Props.C66_failed",
    "Imageio.Props.C66_humansize_partial"
   ],
   "note": "Partial: an exact integer percent can be shown as one less (29 of 100 bytes shows 28), the percent is not computed when the size is set late, and sizes from 1 EiB are shown in the wrong unit. Violations shown by: Imageio.Props.C66_counterexample_percent, Imageio.Props.C66_counterexample_late_size, Imageio.Props.C66_counterexample_humansize"
  },
  {
   "property": "C67",
   "status": "proved",
   "theorems": [
    "Imageio.Props.C67_route",
    "Imageio.Props.C67_call",
    "Imageio.Props.C67_works",
    "Imageio.Props.C67_session",
    "Imageio.Props.C67_others",
    "Imageio.Props.C67_add_show",
    "Imageio.Props.C67_stuck",
    "Imageio.Props.C67_tool",
    "Imageio.Props.C67_tool_success",
    "Imageio.Props.C67_tool_no_timeout",
    "Imageio.Props.C67_no_uuid",
    "Imageio.Props.C67_connects",
    "Imageio.Props.C67_profile_status",
    "Imageio.Props.C67_profile_bad"
   ],
   "note": "For other ids the claim is false: for an id that is empty or starts with a question mark a removal removes all tickets and reports success; what follows a question mark or an encoded newline in an id is ignored; an id that cannot be sent leaves the client unusable until it is closed; with a zero removal timeout an active ticket is reported as removed but stays. Violations shown by: Imageio.Props.C67_counterexample_delete_all, Imageio.Props.C67_counterexample_query, Imageio.Props.C67_counterexample_lost, Imageio.Props.C67_counterexample_no_wait, Imageio.Props.C67_counterexample_newline"
  },
  {
   "property": "C68",
   "status": "proved",
   "theorems": [
    "Imageio.Props.C68_no_leak",
    "Imageio.Props.C68_all_closed",
    "Imageio.Props.C68_verified",
    "Imageio.Props.C68_capabilities",
    "Imageio.Props.C68_old_server",
    "Imageio.Props.C68_refused",
    "Imageio.Props.C68_server",
    "Imageio.Props.C68_clone",
    "Imageio.Props.C68_proxy",
    "Imageio.Props.C68_proxy_unused",
    "Imageio.Props.C68_closed",
    "Imageio.Props.C68_kept"
   ],
   "note": "The order of system calls inside http.client and ssl is described by the outcomes of connecting and of requests. Violations shown by: Imageio.Props.C68_counterexample_timeout, Imageio.Props.C68_counterexample_stuck, Imageio.Props.C68_counterexample_clone_closed, Imageio.Props.C68_counterexample_not_object"
  },
  {
   "property": "C69",
   "status": "proved",
   "theorems": [
    "Imageio.Props.C69_snapshot",
    "Imageio.Props.C69_result",
    "Imageio.Props.C69_stable",
    "Imageio.Props.C69_download",
    "Imageio.Props.C69_unsupported"
   ],
   "note": "The extents are not those of the current image after a write: the cache is never invalidated (counterexample). Violations shown by: Imageio.Props.C69_counterexample_stale"
  },
  {
   "property": "C70",
   "status": "partial",
   "theorems": [
    "Imageio.Props.C70_unambiguous",
    "Imageio.Props.C70_truncated",
    "Imageio.Props.C70_never_wrong",
    "Imageio.Props.C70_connection",
    "Imageio.Props.C70_response",
    "Imageio.Props.C70_error",
    "Imageio.Props.C70_cors",
    "Imageio.Props.C70_info",
    "Imageio.Props.C70_download"
   ],
   "note": "Partial: for header values without line ends. The file name of a ticket is not checked, so it can inject header fields and data (counterexample); an error after the headers of a download were set is sent with them (counterexample). Violations shown by: Imageio.Props.C70_counterexample_stale_fields, Imageio.Props.C70_counterexample_filename"
  },
  {
   "property": "C71",
   "status": "proved",
   "theorems": [
    "Imageio.Props.C71_header",
    "Imageio.Props.C71_negative",
    "Imageio.Props.C71_backup",
    "Imageio.Props.C71_restore",
    "Imageio.Props.C71_restore_succeeds",
    "Imageio.Props.C71_small_target",
    "Imageio.Props.C71_round_trip",
    "Imageio.Props.C71_chain",
    "Imageio.Props.C71_incremental"
   ],
   "note": "The JSON text of the metadata is a parameter. A larger target keeps its old data after the end of the restored image (counterexample). Violations shown by: Imageio.Props.C71_counterexample_larger_target"
  },
  {
   "property": "C72",
   "status": "partial",
   "theorems": [
    "Imageio.Props.C72_copy",
    "Imageio.Props.C72_small_target",
    "Imageio.Props.C72_succeeds",
    "Imageio.Props.C72_bytes_partial"
   ],
   "note": "Partial: the bytes are proved for volumes with a hole only at the end. The offset is not moved after a hole, so data after a hole is written at the start of the hole and old data is left in the target. Violations shown by: Imageio.Props.C72_counterexample_after_hole, Imageio.Props.C72_counterexample_corrupted"
  },
  {
   "property": "C73",
   "status": "partial",
   "theorems": [
    "Imageio.Props.C73_size",
    "Imageio.Props.C73_read_at",
    "Imageio.Props.C73_read_at_succeeds",
    "Imageio.Props.C73_end_partial",
    "Imageio.Props.C73_extents",
    "Imageio.Props.C73_extents_end",
    "Imageio.Props.C73_requests",
    "Imageio.Props.C73_map"
   ],
   "note": "Partial: reading at the end of the image, or an empty buffer, fails with an error that is not io.EOF; negative offsets are io.EOF; Size panics for an empty list of extents; Extents never ends for a server that sends no extents and panics for an odd number of values. Violations shown by: Imageio.Props.C73_counterexample_size, Imageio.Props.C73_counterexample_end, Imageio.Props.C73_counterexample_empty, Imageio.Props.C73_counterexample_negative, Imageio.Props.C73_counterexample_forever, Imageio.Props.C73_counterexample_odd"
  },
  {
   "property": "C74",
   "status": "partial",
   "theorems": [
    "Imageio.Props.C74_measure",
    "Imageio.Props.C74_bound",
    "Imageio.Props.C74_connection",
    "Imageio.Props.C74_repr_partial"
   ],
   "note": "Partial: the text of a running clock shows only the time of the last part and a wrong rate, and it fails with ZeroDivisionError for bytes without time; a part inside a part with the same name raises (this does not happen in the server). Violations shown by: Imageio.Props.C74_counterexample_running, Imageio.Props.C74_counterexample_division, Imageio.Props.C74_counterexample_nested"
  },
  {
   "property": "C75",
   "status": "partial",
   "theorems": [
    "Imageio.Props.C75_first",
    "Imageio.Props.C75_only_signals",
    "Imageio.Props.C75_stops",
    "Imageio.Props.C75_success",
    "Imageio.Props.C75_before",
    "Imageio.Props.C75_copied",
    "Imageio.Props.C75_reported",
    "Imageio.Props.C75_no_deadlock",
    "Imageio.Props.C75_ends",
    "Imageio.Props.C75_status",
    "Imageio.Props.C75_upload",
    "Imageio.Props.C75_download"
   ],
   "note": "Partial: an error while finalizing hides the signal of a download (exit status 1). Violations shown by: Imageio.Props.C75_counterexample_hidden"
  },
  {
   "property": "C76",
   "status": "partial",
   "theorems": [
    "Imageio.Props.C76_history",
    "Imageio.Props.C76_bounds",
    "Imageio.Props.C76_read_back",
    "Imageio.Props.C76_flush",
    "Imageio.Props.C76_succeeds",
    "Imageio.Props.C76_exit"
   ],
   "note": "Partial: if the ticket is larger than the image, read_from and zero after the end of the image do not raise, and the cached size is stale; calls that write nothing raise. Violations shown by: Imageio.Props.C76_counterexample_grow, Imageio.Props.C76_counterexample_empty"
  },
  {
   "property": "C77",
   "status": "proved",
   "theorems": [
    "Imageio.Props.C77_refines",
    "Imageio.Props.C77_full",
    "Imageio.Props.C77_incremental",
    "Imageio.Props.C77_untouched",
    "Imageio.Props.C77_size",
    "Imageio.Props.C77_succeeds",
    "Imageio.Props.C77_backups",
    "Imageio.Props.C77_restore"
   ],
   "note": "The dirty extents must say the truth about what changed; the disk does not change during a download."
  },
  {
   "property": "C78",
   "status": "partial",
   "theorems": [
    "Imageio.Props.C78_create",
    "Imageio.Props.C78_convert",
    "Imageio.Props.C78_rebase",
    "Imageio.Props.C78_info_command",
    "Imageio.Props.C78_measure_command",
    "Imageio.Props.C78_compare_command",
    "Imageio.Props.C78_bitmap",
    "Imageio.Props.C78_compare",
    "Imageio.Props.C78_info",
    "Imageio.Props.C78_no_member",
    "Imageio.Props.C78_member",
    "Imageio.Props.C78_measure_member",
    "Imageio.Props.C78_fields",
    "Imageio.Props.C78_source",
    "Imageio.Props.C78_source_member",
    "Imageio.Props.C78_extents",
    "Imageio.Props.C78_dirty",
    "Imageio.Props.C78_checksum",
    "Imageio.Props.C78_checksum_member",
    "Imageio.Props.C78_verify",
    "Imageio.Props.C78_verify_member",
    "Imageio.Props.C78_collision"
   ],
   "note": "Partial: file names that begin with a dash or contain a colon before a slash, and compressed archives, are real exceptions; qemu-img and qemu-nbd are assumed to be honest about the bytes they are told to open. Violations shown by: Imageio.Props.C78_counterexample_dash, Imageio.Props.C78_counterexample_colon, Imageio.Props.C78_counterexample_compressed"
  },
  {
   "property": "C79",
   "status": "partial",
   "theorems": [
    "Imageio.Props.C79_step",
    "Imageio.Props.C79_integrity",
    "Imageio.Props.C79_not_run",
    "Imageio.Props.C79_revoked",
    "Imageio.Props.C79_upload",
    "Imageio.Props.C79_download",
    "Imageio.Props.C79_confidential_partial",
    "Imageio.Props.C79_fits",
    "Imageio.Props.C79_last_write"
   ],
   "note": "Partial: the removal is about ticket objects and a non-zero remove_timeout (a ticket id that was added again, and a zero timeout, are real exceptions), and open ranges past the end of a ticket are an exception for reading. The effects of an operation on its disk are taken at its end; operations inside the storage at the same time are in C83. Violations shown by: Imageio.Props.C79_counterexample_removed, Imageio.Props.C79_counterexample_zero_timeout"
  },
  {
   "property": "C80",
   "status": "proved",
   "theorems": [
    "Imageio.Props.C80_loads",
    "Imageio.Props.C80_loads_bytes",
    "Imageio.Props.C80_unambiguous",
    "Imageio.Props.C80_dumps",
    "Imageio.Props.C80_roundtrip",
    "Imageio.Props.C80_injective",
    "Imageio.Props.C80_ascii",
    "Imageio.Props.C80_cut",
    "Imageio.Props.C80_codec",
    "Imageio.Props.C80_codec_client",
    "Imageio.Props.C80_server",
    "Imageio.Props.C80_session",
    "Imageio.Props.C80_extents",
    "Imageio.Props.C80_zero",
    "Imageio.Props.C80_ticket",
    "Imageio.Props.C80_map"
   ],
   "note": "The json library of python is modelled from its python source. Simplified: values of floats are one value, a lone surrogate is U+FFFD, UTF-16, UTF-32 and byte order marks are refused; the recursion limit and the limit of 4300 digits are not modelled."
  },
  {
   "property": "C81",
   "status": "proved",
   "theorems": [
    "Imageio.Props.C81_unambiguous",
    "Imageio.Props.C81_load",
    "Imageio.Props.C81_refused",
    "Imageio.Props.C81_values",
    "Imageio.Props.C81_load_config",
    "Imageio.Props.C81_comments",
    "Imageio.Props.C81_written"
   ],
   "note": "RawConfigParser of python 3.12 is modelled from its source, over decoded text: UnicodeDecodeError is not modelled. An option that is indented more than the option before is part of its value, and a comment after a value is part of the value (counterexamples to what a user may expect). Violations shown by: Imageio.Props.C81_counterexample_indented, Imageio.Props.C81_counterexample_inline"
  },
  {
   "property": "C82",
   "status": "partial",
   "theorems": [
    "Imageio.Props.C82_unknown_size",
    "Imageio.Props.C82_known_size",
    "Imageio.Props.C82_path_partial",
    "Imageio.Props.C82_close",
    "Imageio.Props.C82_stream"
   ],
   "note": "Partial: a path with ? or # or two slashes at its start opens another file; close() always raises AttributeError the first time, and leaks the buffer if closing the file fails; an empty piece ends an UnbufferedStream early. The loop over the stream has fuel that is shown to suffice. Violations shown by: Imageio.Props.C82_counterexample_path, Imageio.Props.C82_counterexample_close, Imageio.Props.C82_counterexample_leak, Imageio.Props.C82_counterexample_empty"
  },
  {
   "property": "C83",
   "status": "partial",
   "theorems": [
    "Imageio.Props.C83_change",
    "Imageio.Props.C83_revoked",
    "Imageio.Props.C83_done",
    "Imageio.Props.C83_answer",
    "Imageio.Props.C83_ticket",
    "Imageio.Props.C83_no_waiting",
    "Imageio.Props.C83_file_disk",
    "Imageio.Props.C83_file_blocks",
    "Imageio.Props.C83_file_succeeds",
    "Imageio.Props.C83_nbd_disk",
    "Imageio.Props.C83_nbd_succeeds"
   ],
   "note": "Partial: with two operations in one block of a file or block device bytes are lost although both are answered with success (unaligned writes read and write the whole block), and with remove_timeout 0 images change after a successful removal. Files, block devices and NBD; reading is in C84. Zeroing past the end of a sparse regular file is excluded (C46). Violations shown by: Imageio.Props.C83_counterexample_shared_block, Imageio.Props.C83_counterexample_zero_timeout"
  },
  {
   "property": "C84",
   "status": "partial",
   "theorems": [
    "Imageio.Props.C84_refines",
    "Imageio.Props.C84_projects",
    "Imageio.Props.C84_reads_only",
    "Imageio.Props.C84_backends_keep",
    "Imageio.Props.C84_no_waiting",
    "Imageio.Props.C84_answer",
    "Imageio.Props.C84_ticket",
    "Imageio.Props.C84_revoked",
    "Imageio.Props.C84_file_bytes",
    "Imageio.Props.C84_nbd_bytes",
    "Imageio.Props.C84_file_still",
    "Imageio.Props.C84_nbd_still",
    "Imageio.Props.C84_file_succeeds",
    "Imageio.Props.C84_file_size",
    "Imageio.Props.C84_file_finds",
    "Imageio.Props.C84_nbd_size",
    "Imageio.Props.C84_nbd_succeeds"
   ],
   "note": "Partial: the last two sentences are false in general: a download fails if another connection makes a sparse file smaller meanwhile, by zeroing after its end (block devices, other files and NBD exports never become smaller, in no execution, and there it is true); a download that overlaps with an upload can succeed with bytes that were not on the disk together in any state (the old bytes of one block, the new ones of another). A failing download closes the connection after the headers of a successful answer were sent (C12); success here is the operation. Files, block devices and NBD servers. Violations shown by: Imageio.Props.C84_counterexample_torn, Imageio.Props.C84_counterexample_cut"
  },
  {
   "property": "C85",
   "status": "proved",
   "theorems": [
    "Imageio.Props.C85_file_kept",
    "Imageio.Props.C85_file_flush",
    "Imageio.Props.C85_file_stays",
    "Imageio.Props.C85_nbd_kept",
    "Imageio.Props.C85_nbd_flush",
    "Imageio.Props.C85_nbd_stays"
   ],
   "note": "Files and block devices, and NBD servers that announce flush; operations that run at the same time have no bytes in a common block (C83 shows what happens if they have). fsync and the flush of NBD make all that was written before durable; what else the host makes durable on its own is not modelled."
  },
  {
   "property": "C86",
   "status": "partial",
   "theorems": [
    "Imageio.Props.C86_spellings",
    "Imageio.Props.C86_canonical",
    "Imageio.Props.C86_kept",
    "Imageio.Props.C86_same",
    "Imageio.Props.C86_accepted_partial"
   ],
   "note": "Partial: the last part is false: python takes the digits with int(s, 16), so a prefix 0x, a sign, underscores and spaces are accepted in place of digits, and another id is used than the one that was given. Arguments that are not ASCII are not modelled. Violations shown by: Imageio.Props.C86_counterexample_accepted"
  },
  {
   "property": "C87",
   "status": "partial",
   "theorems": [
    "Imageio.Props.C87_host",
    "Imageio.Props.C87_found",
    "Imageio.Props.C87_optional_partial"
   ],
   "note": "Partial: the last sentence is false for a file that is not UTF-8: UnicodeDecodeError is not an OSError and stops the command. The engine is a parameter that answers the searches of the form used by find_host with what is in it; names with spaces or other special characters are not covered. Violations shown by: Imageio.Props.C87_counterexample_undecodable"
  },
  {
   "property": "C88",
   "status": "partial",
   "theorems": [
    "Imageio.Props.C88_text",
    "Imageio.Props.C88_fits",
    "Imageio.Props.C88_bar",
    "Imageio.Props.C88_json"
   ],
   "note": "Partial: false of lines longer than the width: the end of a long line stays on the screen when a shorter line is drawn over it. The value of the elapsed time in the JSON output is not modelled, and the terminal is wider than the line. Violations shown by: Imageio.Props.C88_counterexample_stale"
  },
  {
   "property": "C89",
   "status": "proved",
   "theorems": [
    "Imageio.Props.C89_document",
    "Imageio.Props.C89_effective",
    "Imageio.Props.C89_exit",
    "Imageio.Props.C89_logger",
    "Imageio.Props.C89_defaults",
    "Imageio.Props.C89_member",
    "Imageio.Props.C89_last"
   ],
   "note": "The values of floats are their texts: the document grammar (C80) does not keep the value. What logging.config does with the parser is not modelled."
  },
  {
   "property": "C90",
   "status": "partial",
   "theorems": [
    "Imageio.Props.C90_id",
    "Imageio.Props.C90_path",
    "Imageio.Props.C90_served_partial",
    "Imageio.Props.C90_result",
    "Imageio.Props.C90_cleanup_partial",
    "Imageio.Props.C90_no_control",
    "Imageio.Props.C90_read_only",
    "Imageio.Props.C90_download"
   ],
   "note": "Partial: false for temporary directories whose path has characters that are special in urls, when the directory cannot be removed, and in the cases of C64; qemu-nbd opens the image for writing. Violations shown by: Imageio.Props.C90_counterexample_writable, Imageio.Props.C90_counterexample_tmpdir, Imageio.Props.C90_counterexample_left"
  },
  {
   "property": "C91",
   "status": "partial",
   "theorems": [
    "Imageio.Props.C91_source_partial",
    "Imageio.Props.C91_map_partial",
    "Imageio.Props.C91_succeeds",
    "Imageio.Props.C91_truth",
    "Imageio.Props.C91_read_at",
    "Imageio.Props.C91_read_at_succeeds"
   ],
   "note": "Partial: false for files whose name begins with a dash, when stdout cannot be written, for URLs for which os.Stat fails, and for reading at the end of the image. url.Parse, json.Unmarshal and libnbd are arbitrary functions. Violations shown by: Imageio.Props.C91_counterexample_dash, Imageio.Props.C91_counterexample_full, Imageio.Props.C91_counterexample_stat, Imageio.Props.C91_counterexample_end"
  },
  {
   "property": "C92",
   "status": "partial",
   "theorems": [
    "Imageio.Props.C92_rights",
    "Imageio.Props.C92_cached",
    "Imageio.Props.C92_unsupported",
    "Imageio.Props.C92_close",
    "Imageio.Props.C92_failed_partial",
    "Imageio.Props.C92_canceled",
    "Imageio.Props.C92_clone_partial",
    "Imageio.Props.C92_accepted",
    "Imageio.Props.C92_accepted_clone"
   ],
   "note": "Partial: false when the buffer cannot be mapped or io.FileIO fails after os.open; the clone of a NBD backend drops sparse, and the clone of a file backend cannot be cloned. What the constructors of the NBD and http clients leave open when they fail is not part of this model. Violations shown by: Imageio.Props.C92_counterexample_buffer, Imageio.Props.C92_counterexample_descriptor, Imageio.Props.C92_counterexample_sparse, Imageio.Props.C92_counterexample_clone_twice"
  },
  {
   "property": "C93",
   "status": "partial",
   "theorems": [
    "Imageio.Props.C93_finish",
    "Imageio.Props.C93_reported_partial",
    "Imageio.Props.C93_cancel_partial",
    "Imageio.Props.C93_cancel_waited_partial",
    "Imageio.Props.C93_retry"
   ],
   "note": "Partial: false when closing fails: the ticket reports the connection that ended forever, and cancelling stops at the first context that fails. Proved when no close fails, and for requests that are repeated. Each function is one step; interleavings are in C04 to C06 and C48, where closing does not fail. Violations shown by: Imageio.Props.C93_counterexample_reported, Imageio.Props.C93_counterexample_cancel"
  },
  {
   "property": "C94",
   "status": "partial",
   "theorems": [
    "Imageio.Props.C94_released",
    "Imageio.Props.C94_first_partial",
    "Imageio.Props.C94_body",
    "Imageio.Props.C94_no_silence",
    "Imageio.Props.C94_interrupt"
   ],
   "note": "Partial: false for the NBD client, where a wrong name raises AttributeError, for the classes that do not catch errors of closing, and for the NBD backend of _open_nbd, which is not released. Violations shown by: Imageio.Props.C94_counterexample_nbd_client, Imageio.Props.C94_counterexample_replaced, Imageio.Props.C94_counterexample_transfer, Imageio.Props.C94_counterexample_open"
  },
  {
   "property": "C95",
   "status": "partial",
   "theorems": [
    "Imageio.Props.C95_result",
    "Imageio.Props.C95_block_size",
    "Imageio.Props.C95_exact",
    "Imageio.Props.C95_never_other_partial",
    "Imageio.Props.C95_backend",
    "Imageio.Props.C95_supported"
   ],
   "note": "Partial: blkzeroout does not check its numbers and zeroes another range when the offset is negative or at least 2^64. Violations shown by: Imageio.Props.C95_counterexample_wrap"
  },
  {
   "property": "C96",
   "status": "partial",
   "theorems": [
    "Imageio.Props.C96_reads"
   ],
   "note": "Partial: the numbers are not checked, the daemon starts with a negative size of the buffers and fails in the requests. Violations shown by: Imageio.Props.C96_counterexample_numbers"
  },
  {
   "property": "C97",
   "status": "partial",
   "theorems": [
    "Imageio.Props.C97_profile_partial",
    "Imageio.Props.C97_running",
    "Imageio.Props.C97_refused"
   ],
   "note": "Partial: false after saving a profile failed: the statistics are not cleared, the next profile contains also the former run, and the other clock is refused. Violations shown by: Imageio.Props.C97_counterexample_mixed, Imageio.Props.C97_counterexample_clock"
  },
  {
   "property": "C98",
   "status": "partial",
   "theorems": [
    "Imageio.Props.C98_abstract",
    "Imageio.Props.C98_abstract_in_use",
    "Imageio.Props.C98_path_partial",
    "Imageio.Props.C98_restart",
    "Imageio.Props.C98_clean"
   ],
   "note": "Partial: false for pathname sockets shared by two processes: the second takes the connections of the first, and the first removes the socket of the second when it stops; any file at the path is removed. Violations shown by: Imageio.Props.C98_counterexample_stolen, Imageio.Props.C98_counterexample_file"
  },
  {
   "property": "C99",
   "status": "partial",
   "theorems": [
    "Imageio.Props.C99_read",
    "Imageio.Props.C99_write_partial",
    "Imageio.Props.C99_zero",
    "Imageio.Props.C99_closed",
    "Imageio.Props.C99_mode",
    "Imageio.Props.C99_seek",
    "Imageio.Props.C99_close",
    "Imageio.Props.C99_dirty",
    "Imageio.Props.C99_clone_partial",
    "Imageio.Props.C99_handlers",
    "Imageio.Props.C99_copy_partial"
   ],
   "note": "Partial: false for clones of an empty backend, for writing nothing after the end, for negative positions, for reading after the end, and for copying from a source that is too short. Violations shown by: Imageio.Props.C99_counterexample_clone, Imageio.Props.C99_counterexample_empty_write, Imageio.Props.C99_counterexample_negative, Imageio.Props.C99_counterexample_read_after_end, Imageio.Props.C99_counterexample_copy, Imageio.Props.C99_counterexample_copy_forever"
  },
  {
   "property": "C100",
   "status": "partial",
   "theorems": [
    "Imageio.Props.C100_owned_partial",
    "Imageio.Props.C100_stop_partial",
    "Imageio.Props.C100_stop_again",
    "Imageio.Props.C100_signals",
    "Imageio.Props.C100_kill",
    "Imageio.Props.C100_not_running",
    "Imageio.Props.C100_wait",
    "Imageio.Props.C100_options_partial"
   ],
   "note": "Partial: false when start is called twice, the first process is then left running, and for the options of a later start, which are those chosen by the first. Violations shown by: Imageio.Props.C100_counterexample_twice, Imageio.Props.C100_counterexample_options"
  },
  {
   "property": "C101",
   "status": "partial",
   "theorems": [
    "Imageio.Props.C101_unique",
    "Imageio.Props.C101_read",
    "Imageio.Props.C101_retry",
    "Imageio.Props.C101_write",
    "Imageio.Props.C101_get",
    "Imageio.Props.C101_put",
    "Imageio.Props.C101_zero"
   ],
   "note": "Partial: when the image is smaller than the ticket the first answer tells the size of the ticket, a range inside of it can be refused once more with the right size; suffix ranges are refused without a size; the header is not valid for tickets with negative size. Violations shown by: Imageio.Props.C101_counterexample_size, Imageio.Props.C101_counterexample_suffix, Imageio.Props.C101_counterexample_parse, Imageio.Props.C101_counterexample_negative"
  },
  {
   "property": "C102",
   "status": "partial",
   "theorems": [
    "Imageio.Props.C102_func",
    "Imageio.Props.C102_listed",
    "Imageio.Props.C102_refused",
    "Imageio.Props.C102_served_partial",
    "Imageio.Props.C102_checksum_partial",
    "Imageio.Props.C102_unusable",
    "Imageio.Props.C102_offline"
   ],
   "note": "Partial: algorithms that are listed but are no attribute of hashlib, or need a length for the digest, are accepted and answered with 500, without reading the image. Violations shown by: Imageio.Props.C102_counterexample_listed"
  },
  {
   "property": "C103",
   "status": "partial",
   "theorems": [
    "Imageio.Props.C103_connect_partial",
    "Imageio.Props.C103_open",
    "Imageio.Props.C103_closed_partial",
    "Imageio.Props.C103_map",
    "Imageio.Props.C103_status"
   ],
   "note": "Partial: a connection whose size cannot be read is not closed; the map command does not close the backend when the extents fail, because log.Fatalf does not run deferred calls. Violations shown by: Imageio.Props.C103_counterexample_size, Imageio.Props.C103_counterexample_extents"
  },
  {
   "property": "C104",
   "status": "partial",
   "theorems": [
    "Imageio.Props.C104_same_partial",
    "Imageio.Props.C104_stable_partial",
    "Imageio.Props.C104_size"
   ],
   "note": "Partial: json.Unmarshal decodes into the objects of earlier results, so Size changes the extents that were returned before when the image changed; an answer with an item of the wrong type is an error, but its other items are returned by the next call; an image without extents panics. Violations shown by: Imageio.Props.C104_counterexample_type, Imageio.Props.C104_counterexample_size, Imageio.Props.C104_counterexample_error"
  }
 ]
}
