# Axioms of the theorems

Generated by `tools/axioms.py` from `#print axioms`.

## none

* `C100_counterexample_options`
* `C100_counterexample_twice`
* `C103_counterexample_size`
* `C20_plain_tiles`
* `C53_counterexample_disk_left`
* `C53_counterexample_left`
* `C55_counterexample_readers`
* `C55_download_format`
* `C56_counterexample_block_device`
* `C56_counterexample_error`
* `C59_counterexample_old_version`
* `C61_counterexample_lost`
* `C73_counterexample_forever`
* `C73_counterexample_odd`
* `C73_counterexample_size`
* `C82_counterexample_close`
* `C82_counterexample_leak`
* `C94_body`
* `C97_refused`
* `C99_close`
* `C99_counterexample_copy`
* `C99_counterexample_negative`

## propext

* `C100_not_running`
* `C100_options_partial`
* `C104_counterexample_error`
* `C104_counterexample_size`
* `C104_counterexample_type`
* `C104_size`
* `C104_stable_partial`
* `C15_last_unique`
* `C19_counterexample_chunked`
* `C25_layout`
* `C25_length`
* `C26_outside_misread`
* `C42_brackets`
* `C42_injective`
* `C42_round_trip`
* `C42_unquoted`
* `C45_counterexample_leaked_writer`
* `C46_no_waiting`
* `C51_close`
* `C56_clone`
* `C56_closed`
* `C59_newest`
* `C59_oldest_partial`
* `C59_policy`
* `C61_up`
* `C62_session`
* `C64_stopped_partial`
* `C68_closed`
* `C75_counterexample_hidden`
* `C84_backends_keep`
* `C93_counterexample_cancel`
* `C94_counterexample_nbd_client`
* `C94_counterexample_open`
* `C94_counterexample_transfer`
* `C94_interrupt`
* `C94_released`
* `C95_block_size`
* `C95_counterexample_wrap`
* `C97_running`
* `C98_abstract`
* `C98_clean`
* `C98_counterexample_file`
* `C98_counterexample_stolen`
* `C98_path_partial`
* `C99_clone_partial`
* `C99_closed`
* `C99_dirty`
* `C99_mode`
* `C99_seek`

## propext, Classical.choice, Quot.sound

* `C01_sum_is_size_of_union`
* `C01_transferred_is_size_of_union`
* `C02_canonical`
* `C02_disjoint_with_gaps`
* `C02_order_independent`
* `C02_retransmission`
* `C02_shortest`
* `C03_no_use_without_authorization`
* `C03_refused_has_no_effect`
* `C04_not_listed_when_answered`
* `C04_removed_ticket_is_dead`
* `C05_nothing_closed_while_running`
* `C05_timeout_keeps_canceled_ticket`
* `C06_late_backend_closed`
* `C06_not_closed_while_used`
* `C06_removed_ticket_released`
* `C07_completed_operation_touches`
* `C07_expiration_changes`
* `C07_extend_makes_usable`
* `C07_touch_moves_expiration`
* `C07_unused_ticket_refused`
* `C08_put_exact`
* `C08_put_succeeds`
* `C09_aligned`
* `C09_put_exact`
* `C09_write_exact`
* `C09_write_failed`
* `C101_counterexample_negative`
* `C101_counterexample_parse`
* `C101_counterexample_size`
* `C101_counterexample_suffix`
* `C101_get`
* `C101_put`
* `C101_read`
* `C101_retry`
* `C101_unique`
* `C101_write`
* `C101_zero`
* `C102_checksum_partial`
* `C102_counterexample_listed`
* `C102_func`
* `C102_listed`
* `C102_offline`
* `C102_refused`
* `C102_served_partial`
* `C102_unusable`
* `C103_closed_partial`
* `C103_counterexample_extents`
* `C103_map`
* `C103_open`
* `C103_status`
* `C10_never_success`
* `C10_operation_error`
* `C10_prefix_stored`
* `C11_counterexample_empty_range`
* `C11_get_exact`
* `C11_get_succeeds`
* `C11_read_only`
* `C11_unsatisfiable_refused`
* `C12_counterexample_open_range`
* `C12_get_within_partial`
* `C12_patch_within`
* `C12_put_refused`
* `C12_put_within`
* `C12_zero_refused`
* `C13_zero_exact`
* `C13_zero_succeeds`
* `C14_flush_request`
* `C14_flush_succeeds`
* `C14_put_flushed`
* `C15_download`
* `C15_last_total`
* `C15_last_write`
* `C16_client_range`
* `C16_counterexample_empty_read`
* `C16_counterexample_empty_suffix`
* `C16_parse_iff`
* `C16_round_trip`
* `C17_client_round_trip`
* `C17_counterexample_empty_response`
* `C17_counterexample_empty_write`
* `C17_invalid_refused`
* `C17_parse_iff`
* `C17_server_round_trip`
* `C18_reads_prefix_of_body`
* `C18_whole_body`
* `C19_counterexample_invalid_length`
* `C19_counterexample_unread_body`
* `C19_failure_closes_unread`
* `C19_in_sync_partial`
* `C20_dirty_reported`
* `C20_dirty_tiles`
* `C20_wire`
* `C20_zero_reported`
* `C20_zero_tiles`
* `C20_zero_unique`
* `C21_dirty_flags`
* `C21_shortest`
* `C21_split_independent`
* `C21_zero_flags`
* `C22_content_only`
* `C22_image`
* `C22_nbd_valid`
* `C22_plain_file`
* `C23_sizes`
* `C23_tiles`
* `C23_zero`
* `C25_decodable`
* `C25_negative`
* `C25_not_sent`
* `C25_refused`
* `C25_sent`
* `C25_session`
* `C26_incomplete_accepted`
* `C26_read`
* `C26_simple`
* `C27_context`
* `C27_ends`
* `C27_error_chunk`
* `C27_error_offset`
* `C27_handle`
* `C27_length`
* `C27_magic`
* `C27_session`
* `C27_simple`
* `C27_truncated`
* `C27_type`
* `C28_bytes`
* `C28_copy`
* `C28_empty_destination`
* `C28_handler_copy`
* `C28_handler_counterexample_short_read`
* `C28_handler_failed`
* `C28_holes`
* `C28_outside`
* `C29_bytes`
* `C29_incremental`
* `C29_untouched`
* `C30_buffer`
* `C30_count`
* `C30_covers`
* `C30_split`
* `C31_bounded`
* `C31_fifo`
* `C31_lossless`
* `C31_put_keeps`
* `C32_consumer_not_stranded`
* `C32_get_wakes_producer`
* `C32_no_deadlock`
* `C32_producer_not_stranded`
* `C33_closes`
* `C33_ends`
* `C33_failed`
* `C33_joined`
* `C33_no_deadlock`
* `C33_success`
* `C33_terminates`
* `C34_bound`
* `C34_bound_dirty`
* `C34_copy`
* `C34_dirty`
* `C35_answers`
* `C35_dirty`
* `C35_dirty_dict`
* `C35_old_server`
* `C35_refused`
* `C35_zero`
* `C35_zero_dict`
* `C36_allow`
* `C36_header`
* `C36_refused`
* `C36_star`
* `C37_counterexample_no_status`
* `C37_error_status`
* `C37_first_match`
* `C37_image_resources`
* `C37_methods`
* `C37_not_found`
* `C37_one_status`
* `C37_table_dispatch`
* `C37_unknown_method`
* `C38_accepted`
* `C38_bad_request`
* `C38_counterexample_bool`
* `C38_counterexample_negative`
* `C38_documented_partial`
* `C38_installed`
* `C38_other_id`
* `C38_parse_iff`
* `C38_refused`
* `C39_progress_bounded`
* `C39_progress_monotone_partial`
* `C40_bounds`
* `C40_counterexample_loose`
* `C40_counterexample_str`
* `C40_documented`
* `C40_others_refused_partial`
* `C40_size_iff`
* `C40_str_partial`
* `C41_counterexample_export_port`
* `C41_counterexample_file`
* `C41_counterexample_path_colon`
* `C41_counterexample_query`
* `C41_counterexample_relative`
* `C41_file_partial`
* `C41_http`
* `C41_nice`
* `C41_scheme`
* `C41_scheme_case`
* `C41_tcp_partial`
* `C41_unix_partial`
* `C42_not_idempotent`
* `C43_counterexample_default`
* `C43_duplicate`
* `C43_effective_unique`
* `C43_error_iff`
* `C43_failed`
* `C43_file_order`
* `C43_last_file_partial`
* `C43_load_config`
* `C43_names`
* `C43_values`
* `C44_block_size`
* `C44_block_size_default`
* `C44_block_size_refused`
* `C44_block_size_used`
* `C44_canceled`
* `C44_counterexample_ticket_size`
* `C44_exact_partial`
* `C44_response`
* `C44_served`
* `C45_buffers`
* `C45_bytes`
* `C45_ends`
* `C45_extents`
* `C45_failure`
* `C45_in_flight`
* `C45_no_deadlock_data`
* `C45_no_deadlock_partial`
* `C45_outside`
* `C45_progress`
* `C45_stuck`
* `C45_terminates`
* `C46_file_result`
* `C46_file_stored`
* `C46_file_succeeds`
* `C46_file_untouched`
* `C46_nbd_stored`
* `C47_at_most_one_more_chunk`
* `C47_canceled_operation_refused`
* `C47_read`
* `C47_write`
* `C47_zero`
* `C48_closed_at_end_partial`
* `C48_not_shared`
* `C48_opened_once`
* `C48_own_backend`
* `C49_counterexample_empty_write`
* `C49_counterexample_flush`
* `C49_counterexample_short_write`
* `C49_counterexample_size`
* `C49_download_exact`
* `C49_flush_durable`
* `C49_lawful`
* `C49_read_exact`
* `C49_read_succeeds`
* `C49_size`
* `C49_upload_exact`
* `C49_upload_succeeds`
* `C49_write_exact`
* `C49_write_succeeds`
* `C49_zero_emulated`
* `C49_zero_exact`
* `C49_zero_succeeds`
* `C50_create_iff`
* `C50_create_terminates`
* `C50_finalize`
* `C50_finalize_terminates`
* `C51_only_closed`
* `C51_released`
* `C51_stays_closed`
* `C52_others_unaffected`
* `C52_remove_twice`
* `C53_download`
* `C53_upload_calls`
* `C53_upload_completed`
* `C53_upload_failed`
* `C54_bitmap`
* `C54_bitmap_name_counterexample`
* `C54_ends`
* `C54_only`
* `C54_refused`
* `C54_same_id_counterexample`
* `C54_succeeds`
* `C55_download`
* `C55_download_connections`
* `C55_download_incremental`
* `C55_download_layer`
* `C55_prepare`
* `C55_snapshot`
* `C55_snapshot_same`
* `C55_upload`
* `C55_upload_connections`
* `C55_upload_disk`
* `C56_detect`
* `C56_lenient`
* `C56_power_of_two`
* `C56_usable`
* `C57_command`
* `C57_config`
* `C57_counterexample_empty`
* `C57_default`
* `C57_fails`
* `C57_password`
* `C57_secure`
* `C57_transfer`
* `C58_closed`
* `C58_download`
* `C58_failed`
* `C58_flush`
* `C58_lawful`
* `C58_opened`
* `C58_read`
* `C58_upload`
* `C58_works`
* `C58_write`
* `C58_zero`
* `C60_control_only`
* `C60_control_tcp`
* `C60_control_unix`
* `C60_counterexample_abstract`
* `C60_counterexample_port`
* `C60_failed`
* `C60_local`
* `C60_privileges`
* `C60_ready`
* `C60_remote`
* `C60_root_needed`
* `C60_started`
* `C60_starts_partial`
* `C60_stopped`
* `C62_dirty`
* `C62_flags`
* `C62_http`
* `C62_reported`
* `C62_split_independent`
* `C62_unchanged`
* `C62_zero`
* `C63_allocation_depth`
* `C63_cache`
* `C63_counterexample_chain`
* `C63_counterexample_format`
* `C63_fails`
* `C63_json_uri`
* `C63_options`
* `C63_qcow2`
* `C63_qcow2_range_partial`
* `C63_raw`
* `C63_version`
* `C63_version_first_line`
* `C64_bounded`
* `C64_counterexample_leak`
* `C64_sleep`
* `C64_wait`
* `C65_file_partial`
* `C65_image_partial`
* `C65_nbd`
* `C65_one_worker`
* `C66_copy`
* `C66_counterexample_humansize`
* `C66_counterexample_late_size`
* `C66_counterexample_percent`
* `C66_draws`
* `C66_failed`
* `C66_humansize_partial`
* `C66_last`
* `C66_percent_partial`
* `C67_add_show`
* `C67_call`
* `C67_connects`
* `C67_counterexample_delete_all`
* `C67_counterexample_lost`
* `C67_counterexample_newline`
* `C67_counterexample_no_wait`
* `C67_counterexample_query`
* `C67_no_uuid`
* `C67_others`
* `C67_profile_bad`
* `C67_profile_status`
* `C67_route`
* `C67_session`
* `C67_stuck`
* `C67_tool`
* `C67_tool_no_timeout`
* `C67_tool_success`
* `C67_works`
* `C68_all_closed`
* `C68_capabilities`
* `C68_clone`
* `C68_counterexample_not_object`
* `C68_kept`
* `C68_no_leak`
* `C68_old_server`
* `C68_proxy`
* `C68_proxy_unused`
* `C68_refused`
* `C68_server`
* `C68_verified`
* `C69_counterexample_stale`
* `C69_download`
* `C69_result`
* `C69_snapshot`
* `C69_stable`
* `C69_unsupported`
* `C70_connection`
* `C70_cors`
* `C70_counterexample_filename`
* `C70_counterexample_stale_fields`
* `C70_download`
* `C70_error`
* `C70_info`
* `C70_never_wrong`
* `C70_response`
* `C70_truncated`
* `C70_unambiguous`
* `C71_backup`
* `C71_chain`
* `C71_counterexample_larger_target`
* `C71_incremental`
* `C71_negative`
* `C71_restore`
* `C71_restore_succeeds`
* `C71_round_trip`
* `C71_small_target`
* `C72_bytes_partial`
* `C72_copy`
* `C72_counterexample_after_hole`
* `C72_counterexample_corrupted`
* `C72_small_target`
* `C72_succeeds`
* `C73_counterexample_empty`
* `C73_counterexample_end`
* `C73_counterexample_negative`
* `C73_end_partial`
* `C73_extents`
* `C73_extents_end`
* `C73_map`
* `C73_read_at`
* `C73_read_at_succeeds`
* `C74_connection`
* `C75_before`
* `C75_copied`
* `C75_download`
* `C75_ends`
* `C75_no_deadlock`
* `C75_success`
* `C75_upload`
* `C76_bounds`
* `C76_counterexample_empty`
* `C76_counterexample_grow`
* `C76_flush`
* `C76_history`
* `C76_read_back`
* `C76_succeeds`
* `C77_backups`
* `C77_full`
* `C77_incremental`
* `C77_refines`
* `C77_restore`
* `C77_size`
* `C77_succeeds`
* `C77_untouched`
* `C78_bitmap`
* `C78_checksum`
* `C78_checksum_member`
* `C78_compare`
* `C78_compare_command`
* `C78_convert`
* `C78_counterexample_colon`
* `C78_counterexample_compressed`
* `C78_counterexample_dash`
* `C78_create`
* `C78_dirty`
* `C78_extents`
* `C78_fields`
* `C78_info`
* `C78_info_command`
* `C78_measure_command`
* `C78_measure_member`
* `C78_member`
* `C78_no_member`
* `C78_rebase`
* `C78_source`
* `C78_source_member`
* `C78_verify`
* `C78_verify_member`
* `C79_confidential_partial`
* `C79_counterexample_removed`
* `C79_counterexample_zero_timeout`
* `C79_download`
* `C79_fits`
* `C79_integrity`
* `C79_last_write`
* `C79_not_run`
* `C79_revoked`
* `C79_step`
* `C79_upload`
* `C80_ascii`
* `C80_codec`
* `C80_codec_client`
* `C80_cut`
* `C80_dumps`
* `C80_extents`
* `C80_injective`
* `C80_loads`
* `C80_loads_bytes`
* `C80_map`
* `C80_roundtrip`
* `C80_server`
* `C80_session`
* `C80_ticket`
* `C80_unambiguous`
* `C80_zero`
* `C81_comments`
* `C81_counterexample_indented`
* `C81_counterexample_inline`
* `C81_load`
* `C81_load_config`
* `C81_refused`
* `C81_unambiguous`
* `C81_values`
* `C81_written`
* `C82_counterexample_path`
* `C82_known_size`
* `C82_path_partial`
* `C82_stream`
* `C82_unknown_size`
* `C83_answer`
* `C83_change`
* `C83_counterexample_shared_block`
* `C83_counterexample_zero_timeout`
* `C83_done`
* `C83_file_blocks`
* `C83_file_disk`
* `C83_file_succeeds`
* `C83_nbd_disk`
* `C83_nbd_succeeds`
* `C83_revoked`
* `C83_ticket`
* `C84_answer`
* `C84_counterexample_cut`
* `C84_counterexample_torn`
* `C84_file_bytes`
* `C84_file_finds`
* `C84_file_size`
* `C84_file_still`
* `C84_file_succeeds`
* `C84_nbd_bytes`
* `C84_nbd_size`
* `C84_nbd_still`
* `C84_nbd_succeeds`
* `C84_projects`
* `C84_reads_only`
* `C84_revoked`
* `C84_ticket`
* `C85_file_flush`
* `C85_file_kept`
* `C85_file_stays`
* `C85_nbd_flush`
* `C85_nbd_kept`
* `C85_nbd_stays`
* `C86_accepted_partial`
* `C86_kept`
* `C86_same`
* `C86_spellings`
* `C87_counterexample_undecodable`
* `C87_found`
* `C87_host`
* `C87_optional_partial`
* `C88_bar`
* `C88_counterexample_stale`
* `C88_fits`
* `C88_json`
* `C88_text`
* `C89_defaults`
* `C89_document`
* `C89_effective`
* `C89_exit`
* `C89_last`
* `C89_logger`
* `C89_member`
* `C90_cleanup_partial`
* `C90_counterexample_left`
* `C90_counterexample_tmpdir`
* `C90_counterexample_writable`
* `C90_download`
* `C90_no_control`
* `C90_path`
* `C90_read_only`
* `C90_result`
* `C90_served_partial`
* `C91_counterexample_dash`
* `C91_counterexample_full`
* `C91_counterexample_stat`
* `C91_map_partial`
* `C91_source_partial`
* `C91_succeeds`
* `C91_truth`
* `C92_accepted`
* `C92_accepted_clone`
* `C92_cached`
* `C92_canceled`
* `C92_clone_partial`
* `C92_close`
* `C92_counterexample_buffer`
* `C92_counterexample_clone_twice`
* `C92_counterexample_descriptor`
* `C92_counterexample_sparse`
* `C92_failed_partial`
* `C92_rights`
* `C92_unsupported`
* `C93_retry`
* `C95_backend`
* `C95_never_other_partial`
* `C96_counterexample_numbers`
* `C96_reads`
* `C99_copy_partial`
* `C99_counterexample_copy_forever`
* `C99_handlers`
* `C99_read`

## propext, Quot.sound

* `C01_reversed_range_breaks_report`
* `C02_empty_operations_are_stored`
* `C03_authorize_iff`
* `C04_counterexample_clear`
* `C04_counterexample_replaced_ticket`
* `C04_counterexample_zero_timeout`
* `C05_retry_succeeds`
* `C06_counterexample_use_outside_operation`
* `C07_counterexample_operation_undoes_extension`
* `C07_new_ticket_usable`
* `C07_usable_before_expiration`
* `C100_kill`
* `C100_owned_partial`
* `C100_signals`
* `C100_stop_again`
* `C100_stop_partial`
* `C100_wait`
* `C103_connect_partial`
* `C104_same_partial`
* `C20_counterexample_empty`
* `C20_zero_block`
* `C21_merged_bytes`
* `C22_counterexample_short_read`
* `C22_plain_valid`
* `C24_is_zero`
* `C25_disconnect`
* `C25_encoding`
* `C25_unsupported`
* `C28_handler_zero`
* `C30_empty`
* `C30_small`
* `C30_submitted`
* `C31_get_oldest`
* `C31_wait_keeps`
* `C32_executor_counterexample`
* `C32_many_consumers_counterexample`
* `C34_monotone`
* `C36_features`
* `C36_limits`
* `C37_query`
* `C37_query_last`
* `C39_canceled_progress_goes_back`
* `C44_counterexample_unaligned_size`
* `C45_counterexample_deadlock`
* `C45_counterexample_empty`
* `C46_counterexample_shared_block`
* `C46_counterexample_truncate`
* `C48_counterexample_readded_ticket`
* `C50_create_failing`
* `C50_disk_iff`
* `C50_finalize_decides`
* `C51_raises`
* `C52_counterexample_concurrent_removal`
* `C52_counterexample_new_ticket_lost`
* `C52_remove_missing`
* `C55_counterexample_backing_file`
* `C55_counterexample_sparse`
* `C55_iso`
* `C55_proxy`
* `C56_error`
* `C61_terminates_partial`
* `C62_no_allocation`
* `C62_no_bitmap`
* `C64_body`
* `C65_counterexample_shared_block`
* `C68_counterexample_clone_closed`
* `C68_counterexample_stuck`
* `C68_counterexample_timeout`
* `C71_header`
* `C73_requests`
* `C73_size`
* `C74_bound`
* `C74_counterexample_division`
* `C74_counterexample_nested`
* `C74_counterexample_running`
* `C74_measure`
* `C74_repr_partial`
* `C75_first`
* `C75_only_signals`
* `C75_reported`
* `C75_status`
* `C75_stops`
* `C76_exit`
* `C78_collision`
* `C82_close`
* `C82_counterexample_empty`
* `C83_no_waiting`
* `C84_no_waiting`
* `C84_refines`
* `C86_canonical`
* `C86_counterexample_accepted`
* `C90_id`
* `C91_counterexample_end`
* `C91_read_at`
* `C91_read_at_succeeds`
* `C93_cancel_partial`
* `C93_cancel_waited_partial`
* `C93_counterexample_reported`
* `C93_finish`
* `C93_reported_partial`
* `C94_counterexample_replaced`
* `C94_first_partial`
* `C94_no_silence`
* `C95_exact`
* `C95_result`
* `C95_supported`
* `C97_counterexample_clock`
* `C97_counterexample_mixed`
* `C97_profile_partial`
* `C98_abstract_in_use`
* `C98_restart`
* `C99_counterexample_clone`
* `C99_counterexample_empty_write`
* `C99_counterexample_read_after_end`
* `C99_write_partial`
* `C99_zero`
