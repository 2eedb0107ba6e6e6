# Axioms of the theorems in MANIFEST.json (`#print axioms`)

## none

- `AZ.Py.nested_assignment_violated`
- `AZ.Py.python_append_violated`
- `AZ.Py.python_no_dimensions`
- `AZ.S3.s3_largest_object`
- `AZ.create_dims_message`
- `AZ.expect_message`

## propext

- `AZ.Creation.creation_reports_violated`
- `AZ.Creation.files_touch_late`
- `AZ.Jobs.success_means_done`
- `AZ.Jobs.unknown_status_terminates_violated`
- `AZ.Pool.destructor_discards`
- `AZ.Pool.nothing_dropped`
- `AZ.Pool.push_refused`
- `AZ.Pool.stopped_stays_stopped`
- `AZ.Py.nested_level_violated`
- `AZ.Reporting.error_race_violated`
- `AZ.Reporting.refused_then_accepted_violated`
- `AZ.job_error_recorded`
- `AZ.local_mean_violated`

## propext, Classical.choice, Quot.sound

- `AZ.ArrayDims.shard_assignment_partial`
- `AZ.ArrayDims.shard_assignment_violated`
- `AZ.ArrayDims.shard_functions_follow_spec`
- `AZ.ByteText.any_language_partial`
- `AZ.ByteText.any_language_violated`
- `AZ.ByteText.trim_bytes_exact`
- `AZ.Conc.compress_order_irrelevant`
- `AZ.Conc.schedules_cover`
- `AZ.Conc.threads_irrelevant`
- `AZ.Conc.threads_outcome`
- `AZ.Conc.threads_pixel_reads_back`
- `AZ.Conc.threads_v2_crash`
- `AZ.Conc.threads_v3_crash_partial`
- `AZ.CreateEffects.create_agrees`
- `AZ.CreateEffects.create_erases_violated`
- `AZ.CreateEffects.failed_create_erases_violated`
- `AZ.CreateEffects.name_bytes_partial`
- `AZ.CreateEffects.name_bytes_violated`
- `AZ.CreateEffects.named_stream_utf8`
- `AZ.CreateEffects.refused_untouched_partial`
- `AZ.CreateEffects.withNames_exact`
- `AZ.Destroy.destroy_first_partial`
- `AZ.Destroy.destroy_first_stream`
- `AZ.Destroy.failed_array_violated`
- `AZ.Destroy.failed_document_violated`
- `AZ.Heap.frames_of_stream`
- `AZ.Heap.leak_exact`
- `AZ.Heap.leak_violated`
- `AZ.Heap.no_leak_partial`
- `AZ.Jobs.jobs_agree`
- `AZ.Log.late_line_violated`
- `AZ.Log.level_race_free_partial`
- `AZ.Log.level_race_violated`
- `AZ.Log.log_complete`
- `AZ.Log.log_finite`
- `AZ.Log.log_progress`
- `AZ.Log.log_whole_lines`
- `AZ.MakeDirs.batches_apart`
- `AZ.MakeDirs.directories_whatever_the_schedule`
- `AZ.MakeDirs.documents_have_their_directory`
- `AZ.MakeDirs.jobs_end`
- `AZ.Memory.created_terminates_violated`
- `AZ.Memory.memory_agrees_session`
- `AZ.Pool.all_jobs_done`
- `AZ.Pool.jobs_in_order`
- `AZ.Pool.queued_work_progress`
- `AZ.Pool.shutdown_completes`
- `AZ.Pool.shutdown_progress`
- `AZ.Pool.stopped_pool_runs_all`
- `AZ.Py.assignments_take_effect_partial`
- `AZ.Py.bad_value_reported_partial`
- `AZ.Py.dead_stream_violated`
- `AZ.Py.exec_meaning`
- `AZ.Py.is_active_partial`
- `AZ.Py.is_active_violated`
- `AZ.Py.keywords_accepted`
- `AZ.Py.keywords_are_assignments`
- `AZ.Py.keywords_partial`
- `AZ.Py.keywords_take_effect`
- `AZ.Py.list_of_dimensions_violated`
- `AZ.Py.log_member_names`
- `AZ.Py.member_names`
- `AZ.Py.parts_printed_alike_partial`
- `AZ.Py.parts_take_effect`
- `AZ.Py.printed_alike_partial`
- `AZ.Py.printed_alike_violated`
- `AZ.Py.printed_as_source`
- `AZ.Py.program_agrees`
- `AZ.Py.py_log_level_round_trip`
- `AZ.Py.py_set_log_level`
- `AZ.Py.python_create_reads`
- `AZ.Py.python_elements_read_back`
- `AZ.Py.python_elements_read_back_v3_partial`
- `AZ.Py.python_match_partial`
- `AZ.Py.python_mismatch_violated`
- `AZ.Py.python_shape_ignored_violated`
- `AZ.Py.repr_hides_secret`
- `AZ.Py.settings_repr_hides_secret`
- `AZ.Py.shown_secret`
- `AZ.Py.unknown_keyword_violated`
- `AZ.Readme.readme_example_violated`
- `AZ.Reporting.batches_separate`
- `AZ.Reporting.buffers_race_free`
- `AZ.Reporting.flush_jobs_no_false_alarm`
- `AZ.Reporting.flush_jobs_race_free`
- `AZ.Reporting.flush_jobs_reported`
- `AZ.Reporting.late_compression_failure_violated`
- `AZ.Reporting.no_deadlock`
- `AZ.Reporting.stream_calls_accepted`
- `AZ.Reporting.stream_error_race_free_partial`
- `AZ.Reporting.stream_error_race_violated`
- `AZ.Reporting.stream_jobs_no_false_alarm`
- `AZ.Reporting.stream_jobs_race_free`
- `AZ.Reporting.stream_jobs_reported`
- `AZ.Reporting.stream_jobs_return`
- `AZ.Reporting.v2_stream_error_race_free_partial`
- `AZ.Reporting.v3_stream_failures_unreported_violated`
- `AZ.Reporting.v3_write_failures_unreported_violated`
- `AZ.S3.capital_scheme_violated`
- `AZ.S3.connections_accounted`
- `AZ.S3.connections_lost_violated`
- `AZ.S3.connections_return_partial`
- `AZ.S3.connects_as_told_partial`
- `AZ.S3.host_name_violated`
- `AZ.S3.isolated_in_bucket`
- `AZ.S3.refused_layer`
- `AZ.S3.s3_calls_hang_after_violated`
- `AZ.S3.s3_calls_hang_violated`
- `AZ.S3.s3_calls_return_partial`
- `AZ.S3.s3_failed_part_violated`
- `AZ.S3.s3_healthy_succeeds`
- `AZ.S3.s3_keys_exact_partial`
- `AZ.S3.s3_limit_violated`
- `AZ.S3.s3_ngff_valid_partial`
- `AZ.S3.s3_object_exact`
- `AZ.S3.s3_reported_complete_partial`
- `AZ.S3.s3_rewritten_document`
- `AZ.S3.s3_slash_violated`
- `AZ.S3.s3_v2_append_written_exact`
- `AZ.S3.s3_v2_old_level_violated`
- `AZ.S3.s3_v2_replaced_partial`
- `AZ.S3.s3_v2_self_describing`
- `AZ.S3.s3_v2_two_sessions_violated`
- `AZ.S3.s3_v3_append_unwritten_violated`
- `AZ.S3.s3_v3_append_written_partial`
- `AZ.S3.s3_v3_loads_exact`
- `AZ.S3.s3_v3_loads_shown_partial`
- `AZ.S3.s3_v3_old_frames_violated`
- `AZ.S3.s3_v3_replaced_partial`
- `AZ.S3.s3_v3_self_describing_partial`
- `AZ.S3.s3_v3_two_sessions_violated`
- `AZ.S3.s3_v3_wrong_frames_violated`
- `AZ.S3.s3_v3_zeros_violated`
- `AZ.S3.s3_within_limits_partial`
- `AZ.S3.s3_writes_exact`
- `AZ.S3.sink_connections`
- `AZ.S3.untouched_in_bucket`
- `AZ.S3.waiting_ends`
- `AZ.Startup.create_returns_partial`
- `AZ.Startup.create_terminates_violated`
- `AZ.Startup.unknown_cores_violated`
- `AZ.Vec.align_least`
- `AZ.Vec.vector_offset_violated`
- `AZ.Vec.vector_write_partial`
- `AZ.Vec.vector_write_win_partial`
- `AZ.Vec.vector_write_win_violated`
- `AZ.WideSetup.v2_read`
- `AZ.WideSetup.v3_read`
- `AZ.accepted_never_fails_partial`
- `AZ.accepted_preconditions`
- `AZ.accepted_sizes_violated`
- `AZ.append_bytes_out_partial`
- `AZ.append_bytes_out_violated`
- `AZ.append_cuts_exact`
- `AZ.append_cuts_irrelevant_partial`
- `AZ.append_cuts_irrelevant_violated`
- `AZ.append_failed_bytesOut`
- `AZ.append_in_bounds_partial`
- `AZ.append_in_bounds_violated`
- `AZ.append_null`
- `AZ.append_shard_data_violated`
- `AZ.append_terminates`
- `AZ.append_valid`
- `AZ.append_whole_frames_in_bounds`
- `AZ.array_document_step`
- `AZ.array_documents`
- `AZ.blosc_job_cases`
- `AZ.callers_memory`
- `AZ.ceilDiv_least`
- `AZ.chdir_violated`
- `AZ.closed_for_good`
- `AZ.compressed_chunks_partial`
- `AZ.compressor_ignored`
- `AZ.create_any_storage`
- `AZ.create_never_returns`
- `AZ.create_reads_settings`
- `AZ.create_refusing_storage`
- `AZ.create_terminates_partial`
- `AZ.create_terminates_violated`
- `AZ.credentials_not_stored`
- `AZ.custom_metadata_stored_partial`
- `AZ.custom_metadata_uploaded_partial`
- `AZ.destroy_closes_everything`
- `AZ.destroy_null`
- `AZ.documents_may_be_empty`
- `AZ.empty_metadata_violated`
- `AZ.error_text_irrelevant`
- `AZ.failed_append_partial`
- `AZ.failed_shards_partial`
- `AZ.failed_write_reported_partial`
- `AZ.failed_writes_partial`
- `AZ.file_scheme_violated`
- `AZ.file_url_keeps`
- `AZ.file_url_violated`
- `AZ.finished_files_safe_partial`
- `AZ.finished_objects_survive`
- `AZ.flush_schedule_irrelevant`
- `AZ.frame_counter_v3_violated`
- `AZ.frame_counter_violated`
- `AZ.frame_replaced_violated`
- `AZ.frame_write_exact`
- `AZ.frame_write_in_bounds`
- `AZ.huge_chunk_violated`
- `AZ.huge_chunks_lost`
- `AZ.int8_multiscale_violated`
- `AZ.invalid_settings_rejected`
- `AZ.isolated`
- `AZ.large_inner_chunk_ub`
- `AZ.large_plane_chunk_fails`
- `AZ.large_shard_fails`
- `AZ.leading_space_violated`
- `AZ.level_attributes_violated`
- `AZ.level_frame_count`
- `AZ.listed_level_missing_violated`
- `AZ.log_filter`
- `AZ.log_level_round_trip`
- `AZ.log_level_status`
- `AZ.long_streams_partial`
- `AZ.make_buffers_sized`
- `AZ.memory_constant`
- `AZ.metadata_files_partial`
- `AZ.metadata_never_stale`
- `AZ.multiscale_defined_exact_partial`
- `AZ.multiscale_exact_partial`
- `AZ.multiscale_matches_partial`
- `AZ.multiscale_scale_violated`
- `AZ.multiscale_shapes_partial`
- `AZ.multiscale_shapes_v3_partial`
- `AZ.negative_mean_missed`
- `AZ.ngff_axes_violated`
- `AZ.ngff_many_dimensions_violated`
- `AZ.ngff_valid_partial`
- `AZ.no_compression_partial`
- `AZ.none_compressor_violated`
- `AZ.null_endpoint_ub`
- `AZ.null_name_ub`
- `AZ.null_pointers_partial`
- `AZ.null_s3_ub`
- `AZ.null_settings_rejected`
- `AZ.null_strings_violated`
- `AZ.object_names_distinct`
- `AZ.open_files_bounded`
- `AZ.places_distinct`
- `AZ.pyramid_floats_exact`
- `AZ.pyramid_follows_partial`
- `AZ.pyramid_follows_violated`
- `AZ.pyramid_integers_exact`
- `AZ.pyramid_levels`
- `AZ.pyramid_local_mean_partial`
- `AZ.pyramid_local_mean_v3_partial`
- `AZ.pyramid_monotone`
- `AZ.replaced_partial`
- `AZ.s3_crash_whole`
- `AZ.s3_document_last`
- `AZ.s3_documents`
- `AZ.s3_stream_documents`
- `AZ.s3_success_uploaded_partial`
- `AZ.s3_v2_array_documents`
- `AZ.s3_v2_crash_reads`
- `AZ.s3_v2_uploaded`
- `AZ.s3_v3_array_documents`
- `AZ.s3_v3_exact`
- `AZ.s3_v3_last_shard_lost`
- `AZ.s3_v3_uploaded_partial`
- `AZ.s3_v3_violated`
- `AZ.same_data_partial`
- `AZ.scaled_frames_fit`
- `AZ.shard_files_well_formed_one`
- `AZ.shard_files_well_formed_partial`
- `AZ.shard_missing_violated`
- `AZ.shard_without_index`
- `AZ.shard_without_index_violated`
- `AZ.signed_mean_missed`
- `AZ.silent_file_violated`
- `AZ.silent_without_index_violated`
- `AZ.split_levels`
- `AZ.split_pyramid_exact`
- `AZ.split_session`
- `AZ.status_messages`
- `AZ.stays_partial`
- `AZ.store_path_accepted_partial`
- `AZ.stream_documents`
- `AZ.stream_files`
- `AZ.success_means_stored_partial`
- `AZ.trailing_slash_violated`
- `AZ.twice_compressed_violated`
- `AZ.type_names_distinct`
- `AZ.type_names_faithful`
- `AZ.uncompressed_chunk_violated`
- `AZ.untouched`
- `AZ.v2_append_unwritten_violated`
- `AZ.v2_append_written_exact`
- `AZ.v2_append_written_partial`
- `AZ.v2_completed_chunks`
- `AZ.v2_compressed_reads_back`
- `AZ.v2_crash_metadata`
- `AZ.v2_destroy_violated`
- `AZ.v2_failed_calls_keep`
- `AZ.v2_final_document`
- `AZ.v2_large_frames_partial`
- `AZ.v2_large_frames_violated`
- `AZ.v2_listed_exists_partial`
- `AZ.v2_objects_exact`
- `AZ.v2_pixel_reads_back`
- `AZ.v2_pixel_reads_back_int8`
- `AZ.v2_read_cut`
- `AZ.v2_self_describing`
- `AZ.v2_unwritten_is_fill`
- `AZ.v3_append_shards_lose_layers`
- `AZ.v3_append_shards_violated`
- `AZ.v3_append_unwritten_violated`
- `AZ.v3_append_written_partial`
- `AZ.v3_completed_chunk_violated`
- `AZ.v3_completed_shards_partial`
- `AZ.v3_crash_metadata_partial`
- `AZ.v3_destroy_crash_violated`
- `AZ.v3_document_behind`
- `AZ.v3_document_complete_partial`
- `AZ.v3_document_violated`
- `AZ.v3_exception_violated`
- `AZ.v3_failed_calls_keep`
- `AZ.v3_failed_write_violated`
- `AZ.v3_final_document`
- `AZ.v3_flush_message_iff`
- `AZ.v3_large_frames_partial`
- `AZ.v3_large_frames_violated`
- `AZ.v3_listed_exists_partial`
- `AZ.v3_loads_exact_partial`
- `AZ.v3_objects_exact`
- `AZ.v3_pixels_read_back_partial`
- `AZ.v3_read_exact`
- `AZ.v3_self_describing_partial`
- `AZ.v3_unreadable`
- `AZ.v3_unreadable_violated`
- `AZ.v3_wrong_frames_violated`
- `AZ.valid_settings_accepted_partial`
- `AZ.validation_exact`
- `AZ.wide_mean_missed`

## propext, Quot.sound

- `AZ.Creation.false_means_failed`
- `AZ.Creation.returns_after_all`
- `AZ.Creation.true_means_created_if_ended`
- `AZ.Creation.true_means_created_partial`
- `AZ.Creation.unopened_files_unreported`
- `AZ.Jobs.creation_success_means_done`
- `AZ.Jobs.jobs_end_partial`
- `AZ.Jobs.shard_exception_unreported_violated`
- `AZ.Jobs.shard_success`
- `AZ.MakeDirs.directories_made`
- `AZ.MakeDirs.failure_is_seen`
- `AZ.MakeDirs.files_have_their_directory`
- `AZ.Memory.chunk_buffers_terminate_violated`
- `AZ.Memory.memory_reported_partial`
- `AZ.Pool.shutdown_finite`
- `AZ.Py.look_injective`
- `AZ.Py.python_append_exact_partial`
- `AZ.Py.python_append_partial`
- `AZ.Py.python_append_reversed_violated`
- `AZ.Py.python_nul_violated`
- `AZ.Py.python_settings_exact_partial`
- `AZ.Reporting.error_race_free_partial`
- `AZ.Reporting.late_report_violated`
- `AZ.Reporting.many_failures_reported_partial`
- `AZ.Reporting.nothing_after_free`
- `AZ.Reporting.quiet_failure_reported_partial`
- `AZ.Reporting.refused_forever_partial`
- `AZ.Reporting.refused_sound`
- `AZ.Reporting.schedules_bounded`
- `AZ.Reporting.stream_is_freed`
- `AZ.Reporting.threads_stay`
- `AZ.Reporting.unreported_failures_violated`
- `AZ.Reporting.work_done`
- `AZ.Startup.create_works`
- `AZ.Vec.vector_offset_refused`
- `AZ.Vec.vector_offset_wrong`
- `AZ.Vec.vector_too_many_refused`
- `AZ.Vec.vector_write_succeeds`
- `AZ.create_dims`
- `AZ.dims_sound`
- `AZ.scale_defined_partial`
- `AZ.trim_eq_nil_iff`
- `AZ.trim_idempotent`
- `AZ.trim_infix`
- `AZ.trim_spec`
- `AZ.trimmed_unique`

