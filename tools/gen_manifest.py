#!/usr/bin/env python3
"""Writes MANIFEST.json from the table below."""
import json, os
C = []
def c(prop, status, theorems, note=""):
    C.append({"property": prop, "status": status, "theorems": theorems, "note": note})

c("C01", "proved", ["AZ.v2_pixel_reads_back", "AZ.v2_pixel_reads_back_int8"], "Within the size limits stated by the hypotheses (ArrayDims.Fits, fewer than 2^32 frames); a whole session create / whole-frame appends / destroy.")
c("C02", "proved", ["AZ.v2_unwritten_is_fill"], "Same hypotheses as C01.")
c("C03", "proved", ["AZ.v2_compressed_reads_back"], "Blosc is a parameter: a pair of functions with decompress (compress b) = b and compression succeeding.")
c("C04", "partial", ["AZ.v3_pixels_read_back_partial", "AZ.v3_read_exact", "AZ.v3_append_shards_lose_layers", "AZ.v3_append_shards_violated", "AZ.Readme.readme_example_violated"], "Proved for one append chunk per shard; v3_read_exact says exactly what a reader sees for every append shard size. Violated by the code when the append dimension has several chunks per shard: all layers but the last of each shard are lost, among them 900 of every 1000 time points of the README's own example (readme_example_violated).")
c("C05", "proved", ["AZ.places_distinct", "AZ.frame_write_exact"])
c("C06", "proved", ["AZ.frame_write_in_bounds", "AZ.make_buffers_sized"])
c("C07", "partial", ["AZ.ArrayDims.shard_assignment_partial", "AZ.ArrayDims.shard_functions_follow_spec", "AZ.ArrayDims.shard_assignment_violated"], "The index functions follow the specification for chunk numbers counted over all layers; the writer calls them with the number inside the layer, so the slot is wrong in every layer that is not the first of its shard.")
c("C08", "partial", ["AZ.shard_files_well_formed_partial", "AZ.shard_files_well_formed_one", "AZ.shard_without_index", "AZ.shard_missing_violated"], "Form, ranges and disjointness for every append shard size; missing entries exact for one append chunk per shard. Violated: with several, stored chunks are marked missing, and a stream ending on a chunk boundary inside a shard leaves it without index.")
c("C09", "proved", ["AZ.array_documents", "AZ.array_document_step", "AZ.ceilDiv_least", "AZ.v2_final_document"], "array_documents: every write of every array document of a session, V2 and V3, whatever the storage does; array_document_step: the value at the moment of writing; v2_final_document: the file after a V2 session.")
c("C10", "proved", ["AZ.metadata_never_stale"], "V2 and V3, at every instant of the session, whatever the storage does.")
c("C11", "proved", ["AZ.v2_objects_exact"])
c("C12", "proved", ["AZ.object_names_distinct"])
c("C17", "partial", ["AZ.create_terminates_partial", "AZ.create_never_returns", "AZ.create_terminates_violated"], "Violated by the code: create never returns for multiscale settings in which every bounded non-channel dimension has chunk size 1. Proved: returns for exactly the other settings.")
c("C18", "proved", ["AZ.pyramid_levels", "AZ.pyramid_monotone"])
c("C19", "proved", ["AZ.scaled_frames_fit"])
c("C20", "partial", ["AZ.pyramid_local_mean_partial", "AZ.pyramid_local_mean_v3_partial", "AZ.pyramid_integers_exact", "AZ.pyramid_floats_exact", "AZ.wide_mean_missed", "AZ.negative_mean_missed", "AZ.signed_mean_missed", "AZ.local_mean_violated"], "Proved end to end for uint8, for Zarr V2 and V3; violated by the code for wider types: pyramid_integers_exact and pyramid_floats_exact say what is stored for every integer and floating point type (means of single bytes), wide_mean_missed that every bright stream of uint16, uint32 or uint64 misses the mean, negative_mean_missed that every stream of negative int16, int32, int64, float32 or float64 pixels does, signed_mean_missed that an int8 pyramid never shows a negative mean.")
c("C21", "proved", ["AZ.level_frame_count", "AZ.v2_final_document", "AZ.v2_objects_exact", "AZ.pyramid_integers_exact"], "level_frame_count: what the writer of each level received, both versions, whatever the storage does. What a user sees of it: the shape in each level's document (v2_final_document), the chunk files (v2_objects_exact), the pixels (pyramid_integers_exact).")
c("C38", "proved", ["AZ.type_names_faithful", "AZ.type_names_distinct"])
c("C39", "proved", ["AZ.stream_documents", "AZ.stream_files", "AZ.array_documents"], "Array documents: array_documents. Stream-level documents: stream_documents (every write), stream_files (the files after the session).")
c("C40", "partial", ["AZ.multiscale_exact_partial", "AZ.multiscale_matches_partial", "AZ.multiscale_shapes_partial", "AZ.multiscale_shapes_v3_partial", "AZ.multiscale_scale_violated"], "Exactly when the declared factors fit (multiscale_exact_partial): if and only if every inner dimension is a channel or has size 1; then also the shapes in the finished array documents fit (multiscale_shapes_partial, V2; multiscale_shapes_v3_partial, V3, for the documents that C53 calls complete). Otherwise violated in every session with two or more levels (concretely multiscale_scale_violated).")
c("C50", "partial", ["AZ.metadata_files_partial", "AZ.stream_files", "AZ.v2_final_document", "AZ.level_attributes_violated"], "Every file of a finished dataset is a chunk or shard file, a complete JSON document, or the empty 0/.zattrs that every V2 dataset contains (which violates the property).")
c("C13", "partial", ["AZ.append_cuts_irrelevant_partial", "AZ.append_cuts_exact", "AZ.split_pyramid_exact", "AZ.v2_read_cut", "AZ.split_session", "AZ.append_cuts_irrelevant_violated"], "Proved when all calls but the last pass whole frames. Violated by the code when a frame is split. append_cuts_exact says exactly what every sequence of calls that stays inside its buffers stores instead (streams without multiscale; with multiscale split_pyramid_exact, level by level, both versions), v2_read_cut what a reader sees.")
c("C14", "partial", ["AZ.append_bytes_out_partial", "AZ.append_bytes_out_violated"], "Exact value of bytes_out for every state; violated when a carried-over partial frame is completed (bytes counted twice).")
c("C15", "partial", ["AZ.append_in_bounds_partial", "AZ.append_whole_frames_in_bounds", "AZ.append_in_bounds_violated"], "Exactly characterised; violated when a call smaller than a frame completes a carried-over frame.")
c("C16", "proved", ["AZ.append_terminates"], "Whatever the storage does.")
c("C22", "partial", ["AZ.validation_exact", "AZ.invalid_settings_rejected", "AZ.null_settings_rejected", "AZ.valid_settings_accepted_partial", "AZ.create_any_storage", "AZ.create_refusing_storage"], "The decision is exact (validation_exact). Acceptance needs the condition of C17 for multiscale; rejection of NULL strings is C24.")
c("C23", "partial", ["AZ.accepted_preconditions", "AZ.accepted_never_fails_partial", "AZ.large_plane_chunk_fails", "AZ.large_inner_chunk_ub", "AZ.large_shard_fails", "AZ.accepted_sizes_violated"], "accepted_preconditions holds for every accepted settings struct; appends never fail within the size limits of Setup and FitsV3 (accepted_never_fails_partial). Violated beyond: array size + chunk size > 2^32 or chunk count + shard size > 2^32 wraps to no chunks or no shards; every such stream is created and fails on its first frame (throws for height and width, out of bounds for inner dimensions) or its first full chunk (shards).")
c("C24", "partial", ["AZ.null_pointers_partial", "AZ.null_name_ub", "AZ.null_s3_ub", "AZ.null_endpoint_ub", "AZ.null_strings_violated"], "Violated by the code, for every struct that is accepted otherwise: one NULL dimension name or one NULL S3 string is dereferenced (null_name_ub, null_s3_ub).")
c("C25", "proved", ["AZ.append_null", "AZ.append_valid", "AZ.append_failed_bytesOut", "AZ.destroy_null"])
c("C36", "proved", ["AZ.memory_constant"], "Whatever the storage does. Chunk and frame buffers only; buffers of downscaled frames are C61.")
c("C37", "partial", ["AZ.no_compression_partial", "AZ.compressor_ignored", "AZ.none_compressor_violated", "AZ.v2_pixel_reads_back"], "Violated by the code: the compressor field is ignored. Uncompressed data are obtained with a NULL compression settings pointer; they read back without decoder (v2_pixel_reads_back with the identity).")
c("C41", "proved", ["AZ.log_level_round_trip", "AZ.log_level_status", "AZ.log_filter", "AZ.job_error_recorded", "AZ.expect_message", "AZ.error_text_irrelevant", "AZ.Py.py_log_level_round_trip", "AZ.Py.py_set_log_level", "AZ.Py.log_member_names"], "The level reaches stream state only through the text of error messages.")
c("C42", "proved", ["AZ.status_messages"])
c("C43", "proved", ["AZ.dims_sound", "AZ.create_dims", "AZ.create_dims_message"])
c("C44", "proved", ["AZ.trim_spec", "AZ.trimmed_unique", "AZ.trim_idempotent", "AZ.trim_eq_nil_iff", "AZ.trim_infix"], "On characters; that the code classifies bytes, and that this is undefined outside ASCII, is C95.")
c("C26", "proved", ["AZ.Pool.jobs_in_order", "AZ.Pool.all_jobs_done", "AZ.Pool.nothing_dropped", "AZ.Pool.stopped_pool_runs_all", "AZ.Pool.destructor_discards"], "Transition system at the granularity of mutex sections; condition-variable wake-ups, spurious ones included, are steps.")
c("C27", "proved", ["AZ.Pool.stopped_stays_stopped", "AZ.Pool.push_refused", "AZ.Pool.shutdown_finite", "AZ.Pool.shutdown_progress", "AZ.Pool.queued_work_progress", "AZ.Pool.shutdown_completes"])
c("C28", "proved", ["AZ.Conc.threads_outcome", "AZ.Conc.threads_irrelevant", "AZ.Conc.compress_order_irrelevant", "AZ.Conc.schedules_cover", "AZ.Conc.threads_pixel_reads_back", "AZ.Conc.threads_v2_crash", "AZ.Conc.threads_v3_crash_partial", "AZ.flush_schedule_irrelevant"], "Whole sessions with n workers and any schedule (threads_outcome, threads_irrelevant); the other threads_ theorems transfer C01 and C34 to sessions with threads.")
c("C29", "partial", ["AZ.Creation.returns_after_all", "AZ.Creation.false_means_failed", "AZ.Creation.true_means_created_partial", "AZ.Creation.true_means_created_if_ended", "AZ.Creation.creation_reports_violated", "AZ.Creation.files_touch_late", "AZ.Creation.unopened_files_unreported"], "Violated by the code: the jobs release the latch before they record their failure in a variable of the caller.")
c("C30", "partial", ["AZ.success_means_stored_partial", "AZ.failed_write_reported_partial", "AZ.v3_flush_message_iff", "AZ.v3_failed_write_violated", "AZ.v3_exception_violated", "AZ.v2_destroy_violated", "AZ.silent_file_violated"], "Proved for version 2 on storage that reports its failures. For version 3 exactly the exceptions of the first write of a shard are reported (v3_flush_message_iff). Violated by the code for version 3 (empty message, swallowed exception), for files (stream state never checked) and for the data flushed by destroy.")
c("C34", "partial", ["AZ.v2_crash_metadata", "AZ.v3_crash_metadata_partial", "AZ.v3_destroy_crash_violated"], "Process death at any instant, any buffered-write schedule and worker order. Proved for version 2 (appends and destroy) and for the appends of version 3; violated by the destroy of version 3, which closes the document before the last shard files.")
c("C35", "partial", ["AZ.v2_completed_chunks", "AZ.v3_completed_shards_partial", "AZ.v3_completed_chunk_violated"], "Proved for version 2 chunks and version 3 shards; violated for a completed version 3 chunk inside an open shard.")

c("C31", "proved", ["AZ.S3.s3_object_exact", "AZ.S3.s3_healthy_succeeds", "AZ.S3.s3_writes_exact", "AZ.S3.s3_rewritten_document"], "Sink level: writes and finalization of one object against an arbitrary server; the server follows the S3 multipart rules.")
c("C33", "partial", ["AZ.S3.connections_accounted", "AZ.S3.sink_connections", "AZ.S3.connections_return_partial", "AZ.S3.connections_lost_violated"], "Every connection is returned unless creating or completing a multipart upload fails; then it is destroyed (proved counterexample: later requests wait for ever).")
c("C51", "partial", ["AZ.S3.s3_reported_complete_partial", "AZ.S3.s3_object_exact", "AZ.S3.s3_failed_part_violated"], "Holds when every write reports success; violated when a caller goes on after a failed write: the upload is completed from the parts that were stored.")
c("C45", "partial", ["AZ.Vec.align_least", "AZ.Vec.vector_write_partial", "AZ.Vec.vector_write_succeeds", "AZ.Vec.vector_offset_refused", "AZ.Vec.vector_too_many_refused", "AZ.Vec.vector_offset_violated", "AZ.Vec.vector_offset_wrong", "AZ.Vec.vector_write_win_partial", "AZ.Vec.vector_write_win_violated"], "Alignment proved. Placement proved below 2 GiB (POSIX) and for page-aligned sizes (Windows); violated for offsets of 4 GiB or more (the offset is cast to int) and, on Windows, for sizes that are not page multiples.")
c("C46", "partial", ["AZ.Py.python_append_exact_partial", "AZ.Py.python_append_partial", "AZ.Py.python_append_violated", "AZ.Py.python_append_reversed_violated"], "python_append_exact_partial: the array is stored, whatever the memory contains, if and only if numpy calls its layout C-contiguous; so the property is violated for every other layout (transposed and reversed arrays shown).")
c("C47", "proved", ["AZ.Py.repr_hides_secret", "AZ.Py.settings_repr_hides_secret", "AZ.Py.shown_secret"])
c("C48", "partial", ["AZ.long_streams_partial", "AZ.v2_pixel_reads_back", "AZ.v2_final_document", "AZ.v3_final_document", "AZ.frame_counter_violated", "AZ.frame_counter_v3_violated"], "Up to 2^32 - 1 frames proved (version 3: v3_final_document says which frames the document covers, C53); with 2^32 frames the last array document of every version 2 and every version 3 stream declares 0 frames.")
c("C49", "partial", ["AZ.replaced_partial", "AZ.file_url_keeps", "AZ.file_url_violated"], "Proved for store paths without file://; violated with file:// (create_store_ does not strip it).")
c("C52", "partial", ["AZ.Py.python_settings_exact_partial", "AZ.Py.python_no_dimensions", "AZ.Py.python_nul_violated"], "Proved for strings without NUL characters, which cut a string short.")
c("C32", "partial", ["AZ.s3_v2_uploaded", "AZ.s3_v3_exact", "AZ.s3_v3_uploaded_partial", "AZ.s3_v3_last_shard_lost", "AZ.s3_v3_violated"],
  "V2: proved for all settings, levels, frame counts and bucket contents (s3_v2_uploaded). V3: exactly which shards are uploaded (s3_v3_exact): the full ones; everything is uploaded if the frame count is a multiple of the frames per append shard (s3_v3_uploaded_partial); otherwise the property is false in every session (s3_v3_last_shard_lost) and for a concrete one (s3_v3_violated). Server confirms all requests; shards fit in 2^32-1 parts.")
c("C53", "partial", ["AZ.v3_final_document", "AZ.v3_document_complete_partial", "AZ.v3_document_behind", "AZ.v3_document_violated"],
  "Exactly which frames the final document covers (v3_final_document). Complete unless the frames end on a chunk boundary inside an append shard; then it is behind or missing in every session (v3_document_behind, v3_document_violated).")
c("C54", "proved", ["AZ.v3_objects_exact"])
c("C55", "partial", ["AZ.compressed_chunks_partial", "AZ.blosc_job_cases", "AZ.v2_compressed_reads_back", "AZ.huge_chunks_lost", "AZ.huge_chunk_violated"],
  "Error codes are noticed (blosc_job_cases) and chunks that Blosc compresses read back (v2_compressed_reads_back). Violated when Blosc returns 0, as it does for chunks over 2 GiB: every chunk file is empty and all calls succeed (huge_chunks_lost, huge_chunk_violated).")
c("C56", "partial", ["AZ.Reporting.quiet_failure_reported_partial", "AZ.Reporting.many_failures_reported_partial", "AZ.Reporting.refused_sound", "AZ.Reporting.late_report_violated", "AZ.Reporting.unreported_failures_violated", "AZ.Reporting.flush_jobs_no_false_alarm", "AZ.Reporting.stream_calls_accepted", "AZ.Reporting.flush_jobs_reported", "AZ.Reporting.v3_write_failures_unreported_violated", "AZ.Reporting.late_compression_failure_violated", "AZ.Reporting.stream_jobs_reported", "AZ.Reporting.stream_jobs_no_false_alarm", "AZ.Reporting.v3_stream_failures_unreported_violated"],
  "Reported once the error handlers have run, and once more jobs have failed than there are workers; violated in general: the job releases the caller before the failure is recorded, so any number of further calls can succeed; the bound on unreported failures, the number of workers, is attained by every pool. For the jobs that array writers and whole streams really start (Model.FlushJobs): no false alarm, every message of the sequential model is reported exactly once; version 3 jobs whose write fails without throwing carry no message and are never reported under any schedule.")
c("C57", "proved", ["AZ.Reporting.buffers_race_free", "AZ.Reporting.batches_separate", "AZ.Reporting.flush_jobs_race_free", "AZ.Reporting.stream_jobs_race_free"])
c("C58", "partial", ["AZ.Reporting.error_race_free_partial", "AZ.Reporting.error_race_violated", "AZ.Reporting.v2_stream_error_race_free_partial", "AZ.Reporting.stream_error_race_free_partial", "AZ.Reporting.stream_error_race_violated"], "Race-free as long as no job fails; after a failure the unsynchronised message is raced on.")
c("C59", "partial", ["AZ.Reporting.refused_forever_partial", "AZ.Reporting.refused_then_accepted_violated"], "Holds when every failure carries a message; violated by failures with an empty message (version 3 writes).")
c("C60", "proved", ["AZ.Reporting.schedules_bounded", "AZ.Reporting.no_deadlock", "AZ.Reporting.stream_jobs_return"], "Jobs that end; jobs that wait for S3 connections are C86.")
c("C61", "partial", ["AZ.Heap.no_leak_partial", "AZ.Heap.leak_exact", "AZ.Heap.frames_of_stream", "AZ.Heap.leak_violated"], "Holds for at most two levels. Violated for three or more: a frame buffer is lost for every frame written to a level other than the first and the last (exact count: leak_exact).")
c("C62", "partial", ["AZ.Destroy.destroy_first_partial", "AZ.Destroy.destroy_first_stream", "AZ.Destroy.failed_array_violated", "AZ.Destroy.failed_document_violated"], "Freed if every operation succeeds. Violated otherwise: the stream stays allocated, and a second call ends the process (array failure) or fails for ever (document failure).")
c("C63", "proved", ["AZ.isolated", "AZ.untouched", "AZ.S3.isolated_in_bucket", "AZ.S3.untouched_in_bucket"], "Directories are compared as texts. Histories may contain failing calls (then with fewer than 2^32 frames). nested_lost shows that the hypothesis on the directories is needed.")
c("C64", "partial", ["AZ.same_data_partial", "AZ.append_shard_data_violated"], "Holds for version 2 and for version 3 with one append chunk per shard; violated otherwise.")
c("C65", "proved", ["AZ.closed_for_good", "AZ.finished_objects_survive", "AZ.v2_failed_calls_keep", "AZ.v3_failed_calls_keep"], "Fewer than 2^32 frames (C48 covers the wrap).")
c("C66", "partial", ["AZ.failed_append_partial", "AZ.failed_writes_partial", "AZ.failed_shards_partial", "AZ.frame_replaced_violated", "AZ.twice_compressed_violated", "AZ.uncompressed_chunk_violated", "AZ.shard_without_index_violated", "AZ.silent_without_index_violated"], "Holds (V2, filesystem) when the append calls return or are refused because a job has reported an error: every chunk file is missing, empty or exact; V3 with one append chunk per shard: every shard file is missing, or exact up to zeros in place of bytes, or has lost its index. Violated when a shard loses its index (pixels are read as an index), when compressing a chunk fails (it is stored uncompressed), and when the call throws: the frame counter has advanced, the buffers have not been emptied, and the stream goes on.")
c("C67", "partial", ["AZ.append_whole_frames_in_bounds", "AZ.multiscale_defined_exact_partial", "AZ.scale_defined_partial", "AZ.int8_multiscale_violated"], "Exactly which multiscale sessions are undefined (multiscale_defined_exact_partial, both versions, frames below 2 GiB): those with int8 pixels and an appended frame with a 2 by 2 block whose mean, read as unsigned bytes, is 128 or more; all others succeed. Violated for int8: negative pixels are read as bytes above 127 and converted to int8_t.")
c("C68", "proved", ["AZ.s3_documents", "AZ.s3_v2_array_documents", "AZ.s3_v3_array_documents", "AZ.s3_stream_documents"],
  "s3_documents: every document, any storage outcome; the others say what the documents contain. Forms before the last one must be smaller than a part (5 MiB).")
c("C69", "proved", ["AZ.S3.waiting_ends"],
  "Explicit condition variable (sleep, notify_one of any sleeper, spurious wake-ups). Calls that throw destroy connections: C33.")
c("C70", "partial", ["AZ.finished_files_safe_partial", "AZ.documents_may_be_empty"],
  "Proved for all files once destroy has returned success. Violated before, in every session: metadata sinks are never flushed between create and destroy, so all documents may be empty when the process dies (documents_may_be_empty).")
c("C71", "proved", ["AZ.open_files_bounded", "AZ.destroy_closes_everything"],
  "Stream model with exceptions (Model.Exceptions); both versions, multiscale included. A destroy that fails leaves files open, see C62.")
c("C72", "proved", ["AZ.s3_crash_whole", "AZ.s3_document_last", "AZ.s3_v2_crash_reads"],
  "Whole objects: any storage, failing calls included, any server replies. Document last: sessions whose calls succeed, both versions, every level. Reading back: version 2 (the last partial shard of version 3 is never uploaded, see C32).")
c("C73", "partial", ["AZ.Py.python_elements_read_back", "AZ.Py.python_elements_read_back_v3_partial"],
  "Version 2: proved in full, whatever the bucket held before. Version 3: for one append chunk per shard; otherwise violated as C04.")
c("C74", "partial", ["AZ.Py.python_match_partial", "AZ.Py.python_elements_read_back", "AZ.Py.python_shape_ignored_violated", "AZ.Py.python_mismatch_violated"],
  "Violated by the code: append looks only at the number of bytes. Arrays that match are stored element by element (python_elements_read_back); every array whose bytes make whole frames is accepted, whatever its type and shape, and its bytes become pixels (python_mismatch_violated).")
c("C75", "partial", ["AZ.Py.assignments_take_effect_partial", "AZ.Py.exec_meaning", "AZ.Py.look_injective", "AZ.Py.nested_assignment_violated", "AZ.Py.nested_level_violated"],
  "Holds for the attributes of StreamSettings and of its dimensions. Violated for attributes of settings.s3 and settings.compression: the getters return copies, so that settings.compression.level = 9 is lost without an error.")
c("C76", "partial", ["AZ.S3.s3_within_limits_partial", "AZ.S3.s3_limit_violated", "AZ.S3.s3_largest_object"],
  "Proved for objects of up to 10000 parts of 5 MiB, 52428800000 bytes. Violated for every larger object: the part size is fixed, so part 10001 is requested, which no server that keeps to the limits of S3 confirms.")
c("C77", "proved", ["AZ.Log.log_whole_lines", "AZ.Log.log_complete", "AZ.Log.log_finite", "AZ.Log.log_progress"],
  "Transition system at the granularity of characters; start is any state in which no thread is inside the logger.")
c("C78", "partial", ["AZ.Log.level_race_free_partial", "AZ.Log.log_complete", "AZ.Log.level_race_violated", "AZ.Log.late_line_violated"],
  "Proved if the thread that sets the level is the only one that uses the logger (or none sets it); from a moment at which no thread is inside the logger, log_complete gives exactness for the level set. Violated otherwise: the level is a plain variable read outside the mutex, and a thread may be between the test of the level and its output.")
c("C79", "partial", ["AZ.s3_success_uploaded_partial", "AZ.v2_destroy_violated", "AZ.S3.s3_failed_part_violated", "AZ.v3_failed_write_violated", "AZ.s3_v3_last_shard_lost"],
  "Proved for version 2 chunks completed before an append call that returned success, for every server. Violated for the chunks flushed by destroy (a failed write is not reported, and the finalization completes the upload without the failed part) and for version 3.")
c("C80", "proved", ["AZ.v2_self_describing"],
  "The reader (Spec.Reader) parses the JSON documents and refuses what it does not understand. It does not look at 0/.zattrs, which is empty (C50). What the frames of the higher levels are: Spec.MeanPyramid (integer pixels). unblosc inverts the environment's compression.")
c("C81", "partial", ["AZ.v3_self_describing_partial", "AZ.v3_loads_exact_partial", "AZ.v3_unreadable", "AZ.v3_unreadable_violated", "AZ.v3_wrong_frames_violated"],
  "Proved for levels with one append chunk per shard, and exactly what is loaded for every append shard size (v3_loads_exact_partial): of every shard, the first append chunk shows the frames of the last, the others zeros, and levels whose frames end on a chunk boundary inside the first append shard cannot be opened, although all calls succeed. Violated with several append chunks per shard.")
c("C82", "partial", ["AZ.v2_listed_exists_partial", "AZ.v3_listed_exists_partial", "AZ.listed_level_missing_violated", "AZ.v3_unreadable"],
  "Version 2: all levels are listed, and level i can be opened exactly if at least 2^i frames were appended (violated for shorter streams, including level 0 of a stream without frames). Version 3: exactly if its frames do not end on a chunk boundary or fill an append shard (v3_listed_exists_partial).")
c("C83", "partial", ["AZ.S3.s3_v3_self_describing_partial", "AZ.S3.s3_v2_self_describing", "AZ.S3.s3_v3_loads_exact", "AZ.S3.s3_v3_loads_shown_partial", "AZ.S3.s3_v3_zeros_violated", "AZ.S3.s3_v3_wrong_frames_violated"],
  "Version 2: proved in full, whatever the bucket held before. Version 3 with one append chunk per shard: exactly what is loaded (s3_v3_loads_exact): the frames of the full shards; the documents count all frames, and the others are zeros. s3_v3_loads_shown_partial is the same for every append shard size. Documents smaller than a part (5 MiB).")
c("C84", "partial", ["AZ.Py.keywords_partial", "AZ.Py.keywords_are_assignments", "AZ.Py.keywords_take_effect", "AZ.Py.parts_take_effect", "AZ.Py.keywords_accepted", "AZ.Py.member_names", "AZ.Py.list_of_dimensions_violated"],
  "Proved, except that `dimensions` does not accept the documented `List[Dimension]` (list_of_dimensions_violated), only a VectorDimension.")
c("C85", "partial", ["AZ.Py.bad_value_reported_partial", "AZ.Py.unknown_keyword_violated"],
  "Values that a setting cannot take are reported (bad_value_reported_partial). Violated for names: every unknown keyword is accepted without effect (unknown_keyword_violated), so `Dimension(type=DimensionType.TIME)` makes a spatial dimension.")
c("C86", "partial", ["AZ.S3.s3_calls_return_partial", "AZ.S3.s3_calls_hang_violated", "AZ.S3.s3_calls_hang_after_violated", "AZ.S3.refused_layer"],
  "With fewer exceptions than connections, every schedule ends with all calls returned (s3_calls_return_partial). Violated: with more exceptions than connections (s3_calls_hang_violated), or as many and anything to do with a sink afterwards (s3_calls_hang_after_violated), no schedule ever does; a server that refuses to create uploads and a layer of more chunks than connections suffice (refused_layer).")
c("C87", "partial", ["AZ.Startup.create_returns_partial", "AZ.Startup.create_works", "AZ.Startup.create_terminates_violated", "AZ.Startup.unknown_cores_violated"],
  "Holds if no thread after the first fails to start. Violated: the process is terminated exactly if the first thread starts and a later one does not (create_terminates_violated); where hardware_concurrency() is 0, no stream on S3 can be created (unknown_cores_violated).")
c("C88", "partial", ["AZ.Jobs.jobs_end_partial", "AZ.Jobs.success_means_done", "AZ.Jobs.creation_success_means_done", "AZ.Jobs.shard_success", "AZ.Jobs.jobs_agree", "AZ.Jobs.unknown_status_terminates_violated", "AZ.Jobs.shard_exception_unreported_violated"],
  "Holds for all failures except: a directory whose status cannot be determined (no permission on the way, I/O error) makes fs::is_directory throw in a worker, which ends the process (unknown_status_terminates_violated); an exception after the first chunk of a shard is reported as success (shard_exception_unreported_violated). Running out of memory for the error message is excluded.")
c("C89", "partial", ["AZ.Memory.memory_reported_partial", "AZ.Memory.memory_agrees_session", "AZ.Memory.chunk_buffers_terminate_violated", "AZ.Memory.created_terminates_violated"],
  "Holds for the frame buffer and the frames of the pyramid. The chunk buffers are allocated by a noexcept function: if a chunk does not fit, the first append terminates the process (chunk_buffers_terminate_violated; for every stream that was created, created_terminates_violated). memory_agrees_session: the levels of this model follow those of the stream model. Small allocations (names, documents, queue entries) are not modelled.")
c("C90", "partial", ["AZ.custom_metadata_stored_partial", "AZ.custom_metadata_uploaded_partial", "AZ.empty_metadata_violated"],
  "Proved for every JSON text and for NULL, assuming that the JSON library prints the values it reads (up to the precision of numbers, the order of members and repeated names) and ignores surrounding white space. Violated for the empty text: the document stays empty, which is not JSON (empty_metadata_violated).")
c("C91", "partial", ["AZ.CreateEffects.refused_untouched_partial", "AZ.CreateEffects.create_agrees", "AZ.CreateEffects.create_erases_violated", "AZ.CreateEffects.failed_create_erases_violated"],
  "Proved: refused settings, an unusable store path and S3 streams leave all files untouched; create_agrees: this model of the constructor and the one used elsewhere agree. Violated by the code: everything below the store path is removed first, whatever it is (create_erases_violated), also if the call then fails (failed_create_erases_violated).")
c("C92", "partial", ["AZ.Py.printed_alike_partial", "AZ.Py.parts_printed_alike_partial", "AZ.Py.printed_as_source", "AZ.Py.printed_alike_violated"],
  "Proved for texts without apostrophes and the enumerated values Python has names for; printed_as_source: the printed form is the source of the constructor call, every value under its keyword, every enumerated value under its name. Violated by the code with apostrophes, which are printed without escape.")
c("C93", "partial", ["AZ.v2_large_frames_partial", "AZ.v3_large_frames_partial", "AZ.WideSetup.v2_read", "AZ.WideSetup.v3_read", "AZ.v2_large_frames_violated", "AZ.v3_large_frames_violated"],
  "Proved for the first 2^32 pixels of every frame, with the exact array that is read back for all others. Violated by the code beyond: the index of the first pixel of each run of a row inside a tile is computed in 32 bits, so pixels from the top of the frame are stored there, for every setting with at least 2^32 pixels and a row. V3 with one append chunk per shard (see C04).")
c("C94", "partial", ["AZ.pyramid_follows_partial", "AZ.split_pyramid_exact", "AZ.split_levels", "AZ.pyramid_follows_violated"],
  "Proved when every call but the last passes whole frames, with the exact source of every level for all other cuts. Violated by the code there: the frame stored when a call completes a frame begun earlier is written to the full-resolution array only and never handed to the pyramid.")
c("C95", "partial", ["AZ.ByteText.any_language_partial", "AZ.ByteText.trim_bytes_exact", "AZ.ByteText.any_language_violated"],
  "Proved for strings that begin and end (apart from white space) with ASCII characters, whatever is between them, with the exact condition for every string. Violated by the code otherwise: trim calls std::isspace with a negative char, which is undefined.")
c("C96", "partial", ["AZ.CreateEffects.name_bytes_partial", "AZ.CreateEffects.withNames_exact", "AZ.CreateEffects.named_stream_utf8", "AZ.CreateEffects.name_bytes_violated"],
  "Proved: UTF-8 names are taken as the characters they encode (their documents are C39 and C40), and every stream that is created has such names. Violated by the code for other names: they pass validation, the store is cleared, and only then the JSON library throws.")
c("C97", "partial", ["AZ.S3.s3_v2_replaced_partial", "AZ.S3.s3_v3_replaced_partial", "AZ.S3.s3_v2_old_level_violated", "AZ.S3.s3_v3_old_frames_violated", "AZ.S3.s3_v3_two_sessions_violated", "AZ.S3.s3_v2_two_sessions_violated"],
  "Proved for version 2 levels that received a frame, and for version 3 levels that received a whole number of append chunks and filled a shard. Violated by the code otherwise: nothing is removed from the bucket, so a listed version 2 level without a frame is the earlier dataset's, and the frames of the last version 3 shard (never uploaded, C32) are replaced by earlier ones; both for all settings, and for two concrete sessions. Documents smaller than a part (5 MiB).")
c("C98", "partial", ["AZ.ngff_valid_partial", "AZ.S3.s3_ngff_valid_partial", "AZ.ngff_many_dimensions_violated", "AZ.ngff_axes_violated"],
  "Exactly: the metadata are valid if and only if the dimensions of the settings are axes that the standard allows (ngff_valid_partial, s3_ngff_valid_partial). Violated by the code because the settings are not checked: any number of dimensions (six or more never valid, for all settings), equal names and channels before time are accepted.")
c("C99", "proved", ["AZ.credentials_not_stored"],
  "With the same answers of the storage to both streams (Env, World). The log lines' arguments are not modelled (no log statement of the sources has a credential among them; C47 is about the Python representation).")
c("C100", "partial", ["AZ.v2_append_written_partial", "AZ.v2_append_written_exact", "AZ.v2_append_unwritten_violated", "AZ.v3_append_written_partial", "AZ.v3_append_unwritten_violated",
  "AZ.S3.s3_v2_append_written_exact", "AZ.S3.s3_v3_append_written_partial", "AZ.S3.s3_v3_append_unwritten_violated"],
  "Holds for the frames of complete append chunks (V2, and V3 with one append chunk per shard). Violated for all frames of an append chunk that is not full (V2) or of an append shard that is not full (V3): they are in memory until it is full or the stream is destroyed. Exact for V2. The same on S3. Full resolution.")
c("C101", "partial", ["AZ.store_path_accepted_partial", "AZ.trailing_slash_violated", "AZ.leading_space_violated", "AZ.file_scheme_violated", "AZ.S3.s3_keys_exact_partial", "AZ.S3.s3_slash_violated"],
  "File system: proved for paths that end with a name. Violated: a new dataset is refused if its path ends with a slash, an absolute path is refused if a space or file:// precedes it, for all settings. S3: keys can be asked for by a reader iff the prefix is names joined by single slashes (exact); with a slash at its end the dataset is uploaded where no reader looks. POSIX paths without .. and symbolic links.")
c("C102", "partial", ["AZ.stays_partial", "AZ.chdir_violated"],
  "Proved, for all histories with failing calls, for absolute store paths with an arbitrary working directory at every event, and for relative ones if the working directory stays the same: all events lie below the original place and every file has the contents of the session. Violated for a relative store path: after a chdir between two appends the later chunks go elsewhere, the array document of the original dataset promises them, the reader gets fill values.")
c("C103", "partial", ["AZ.Py.is_active_partial", "AZ.Py.is_active_violated", "AZ.Py.dead_stream_violated", "AZ.Py.program_agrees"],
  "Proved as long as no append raises. Violated by every program that asks after an exception: the answer is always True; once the background work has failed with a message every further append raises although is_active says True.")
c("C104", "partial", ["AZ.S3.connects_as_told_partial", "AZ.S3.capital_scheme_violated", "AZ.S3.host_name_violated"],
  "Endpoint and credentials: proved for all settings. Encryption: proved for endpoints with http:// or https:// in small letters. Violated: HTTPS:// gives unencrypted connections (URL schemes do not depend on case); an endpoint without scheme is addressed with encryption iff its host name begins with https. minio-cpp's parsing of the endpoint is not modelled.")
c("C105", "proved", ["AZ.callers_memory", "AZ.create_reads_settings", "AZ.Py.python_create_reads"],
  "Create and append on addresses in a memory in which nothing but settings and data need be readable, a different memory in each call, do what Model.Stream does on the values; reading anything else is undefined behaviour in the model.")
c("C106", "proved", ["AZ.Reporting.nothing_after_free", "AZ.Reporting.work_done", "AZ.Reporting.stream_is_freed", "AZ.Reporting.threads_stay"],
  "Any programs of jobs, so also those of streams (C56). A destroy that fails keeps the stream with its threads (C62). The late accesses of creation jobs to variables of a function that has returned are C29.")
c("C107", "proved", ["AZ.MakeDirs.directories_whatever_the_schedule", "AZ.MakeDirs.directories_made", "AZ.MakeDirs.jobs_end", "AZ.MakeDirs.batches_apart", "AZ.MakeDirs.files_have_their_directory", "AZ.MakeDirs.documents_have_their_directory", "AZ.MakeDirs.failure_is_seen"],
  "System calls that fail for another reason are the environments of C30 and C88; how the failure of a job is reported is C29. nested_names_may_fail shows that the names matter: with a directory and its parent in one call the parent's job can fail although both are made.")
C.sort(key=lambda x: x["property"])
json.dump({"claims": C}, open(os.path.join(os.path.dirname(__file__), "..", "MANIFEST.json"), "w"), indent=1)
