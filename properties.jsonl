{"id": "C01", "title": "Zarr V2: every appended pixel reads back at its own coordinate", "statement": "For any settings accepted by ZarrStream_create with version 2, a filesystem store and no compression, if whole frames are appended and the stream is destroyed, then a Zarr v2 reader that opens <store>/0 reads, at coordinate (t, i1, .., ik, y, x), exactly the bytes of pixel (y, x) of the frame whose number is the row-major rank of (t, i1, .., ik) over the inner array sizes, whenever that frame was appended.", "quantifier": "all dimension counts >= 3, all array/chunk sizes (ragged or not, chunk larger than array included), all data types, all frame sequences and frame contents, all coordinates; sizes within the limits of the fixed-width arithmetic (DESIGN.md, Limits: array size + chunk size up to 2^32, fewer than 2^32 pixels per frame, 2^31 chunks per append layer, 2^32 frames; multiscale: frames below 2 GiB, not int8); C23, C48 and C67 are about what happens beyond", "why_tests_cant": "The mapping frame -> (chunk file, byte offset) is mixed-radix arithmetic over an unbounded number of dimensions and sizes; tests check a handful of shapes and mostly only file sizes.", "anchors": ["src/streaming/array.writer.cpp:ArrayWriter::write_frame", "src/streaming/array.writer.cpp:write_frame_to_chunks_", "src/streaming/zarr.dimension.cpp:tile_group_offset", "src/streaming/zarr.dimension.cpp:chunk_internal_offset", "src/streaming/zarrv2.array.writer.cpp:flush_impl_", "src/streaming/sink.creator.cpp:make_data_sink_paths_"]}
{"id": "C02", "title": "Zarr V2: everything not appended reads as the fill value", "statement": "Under the hypotheses of C01, every element of every chunk file that does not correspond to an appended in-bounds pixel (frames not yet appended in the last append-chunk, and the ragged padding of edge chunks) is zero, which is the fill_value declared in the metadata; in particular no data of an earlier chunk group leaks into a later one.", "quantifier": "all settings, all numbers of frames, all chunk files and all byte positions in them; sizes within the limits of the fixed-width arithmetic (DESIGN.md, Limits: array size + chunk size up to 2^32, fewer than 2^32 pixels per frame, 2^31 chunks per append layer, 2^32 frames; multiscale: frames below 2 GiB, not int8); C23, C48 and C67 are about what happens beyond", "why_tests_cant": "Stale-buffer bugs appear only for particular combinations of ragged sizes and number of flushes.", "anchors": ["src/streaming/array.writer.cpp:make_buffers_", "src/streaming/array.writer.cpp:flush_", "src/streaming/zarrv2.array.writer.cpp:write_array_metadata_"]}
{"id": "C03", "title": "Zarr V2 read-back survives compression", "statement": "C01 and C02 hold with Blosc compression enabled, for any codec, provided decompression inverts compression and compression succeeds; chunk files then hold one compressed buffer each and nothing else.", "quantifier": "all codecs satisfying the round-trip law, all settings and frame sequences; sizes within the limits of the fixed-width arithmetic (DESIGN.md, Limits: array size + chunk size up to 2^32, fewer than 2^32 pixels per frame, 2^31 chunks per append layer, 2^32 frames; multiscale: frames below 2 GiB, not int8); C23, C48 and C67 are about what happens beyond", "why_tests_cant": "Round-trip tests only sample codecs, levels and data.", "anchors": ["src/streaming/array.writer.cpp:compress_buffers_", "src/streaming/blosc.compression.params.cpp"]}
{"id": "C04", "title": "Zarr V3: every appended pixel reads back through the shard index", "statement": "For settings accepted with version 3 on the filesystem, after appending whole frames and destroying the stream, a Zarr v3 sharding reader (index of (offset,nbytes) pairs at the end of each shard) reads every appended pixel at its coordinate and fill (zero or missing chunk) elsewhere.", "quantifier": "all dimension counts, array/chunk/shard sizes, data types, frame sequences and coordinates; sizes within the limits of the fixed-width arithmetic (DESIGN.md, Limits: array size + chunk size up to 2^32, fewer than 2^32 pixels per frame, 2^31 chunks per append layer, 2^32 frames; multiscale: frames below 2 GiB, not int8); C23, C48 and C67 are about what happens beyond", "why_tests_cant": "The shard/slot arithmetic must be right for every combination of ragged chunk and shard sizes and for every number of frames at which the stream is closed.", "anchors": ["src/streaming/zarrv3.array.writer.cpp:flush_impl_", "src/streaming/zarr.dimension.cpp:shard_index_for_chunk", "src/streaming/zarr.dimension.cpp:shard_internal_index", "src/streaming/zarrv3.array.writer.cpp:should_rollover_"]}
{"id": "C05", "title": "No two pixels share storage", "statement": "Two different (frame, row, column) positions of one array are never stored at the same byte of the same chunk, and every frame byte is stored: a frame append writes each byte of the frame exactly once and touches no other byte.", "quantifier": "all dimension configurations, all pairs of frame numbers and pixel positions; sizes within the limits of the fixed-width arithmetic (DESIGN.md, Limits: array size + chunk size up to 2^32, fewer than 2^32 pixels per frame, 2^31 chunks per append layer, 2^32 frames; multiscale: frames below 2 GiB, not int8); C23, C48 and C67 are about what happens beyond", "why_tests_cant": "Injectivity over all pairs is not samplable.", "anchors": ["src/streaming/array.writer.cpp:write_frame_to_chunks_", "src/streaming/zarr.dimension.cpp"]}
{"id": "C06", "title": "Frame writes stay inside the chunk buffers", "statement": "For accepted settings (within the 32/64-bit size limits of the API types) writing a frame never indexes a chunk buffer or a byte outside the allocated buffers and never hits the internal 'Buffer overflow' path, so append never reports failure because of it.", "quantifier": "all accepted settings and all frame numbers below 2^32; sizes within the limits of the fixed-width arithmetic (DESIGN.md, Limits: array size + chunk size up to 2^32, fewer than 2^32 pixels per frame, 2^31 chunks per append layer, 2^32 frames; multiscale: frames below 2 GiB, not int8); C23, C48 and C67 are about what happens beyond", "why_tests_cant": "Out-of-bounds accesses depend on exact arithmetic at ragged edges.", "anchors": ["src/streaming/array.writer.cpp:write_frame_to_chunks_", "src/streaming/array.writer.cpp:make_buffers_", "src/streaming/zarr.dimension.cpp:number_of_chunks_in_memory", "src/streaming/zarr.dimension.cpp:bytes_per_chunk"]}
{"id": "C07", "title": "Chunk-to-shard assignment is a partition", "statement": "Every chunk of an append layer is assigned to exactly one shard and one slot of it; both are in range, two chunks of a layer never get the same (shard, slot), the shard and slot are those the Zarr sharding specification computes from the chunk's grid coordinates, and no shard is left without chunks.", "quantifier": "all array, chunk and shard sizes", "why_tests_cant": "The unit test checks one configuration.", "anchors": ["src/streaming/zarr.dimension.cpp:shard_index_for_chunk", "src/streaming/zarr.dimension.cpp:shard_internal_index", "src/streaming/zarr.dimension.cpp:number_of_shards", "src/streaming/zarr.dimension.cpp:chunks_per_shard"]}
{"id": "C08", "title": "Shard files are well formed", "statement": "Every shard file written with its index ends in exactly 16 bytes per slot; every non-missing entry designates a byte range inside the data part of the file, the ranges of different slots are disjoint, and a slot is marked missing (both words 2^64-1) exactly when no chunk was stored for it.", "quantifier": "all configurations, all chunk contents and compressed sizes; sizes within the limits of the fixed-width arithmetic (DESIGN.md, Limits: array size + chunk size up to 2^32, fewer than 2^32 pixels per frame, 2^31 chunks per append layer, 2^32 frames; multiscale: frames below 2 GiB, not int8); C23, C48 and C67 are about what happens beyond", "why_tests_cant": "Offsets accumulate over data-dependent compressed sizes.", "anchors": ["src/streaming/zarrv3.array.writer.cpp:flush_impl_"]}
{"id": "C09", "title": "Array metadata reports the shape actually written", "statement": "Whenever array metadata is written it declares shape [ceil(frames / product of inner sizes), inner sizes.., height, width], the chunk shape of the settings, the data type of the settings and fill value 0; the declared append extent covers every appended frame and is the least such, and it never decreases.", "quantifier": "all settings and all histories of appends; sizes within the limits of the fixed-width arithmetic (DESIGN.md, Limits: array size + chunk size up to 2^32, fewer than 2^32 pixels per frame, 2^31 chunks per append layer, 2^32 frames; multiscale: frames below 2 GiB, not int8); C23, C48 and C67 are about what happens beyond", "why_tests_cant": "Holds for every frame count, including those that end in the middle of an inner dimension.", "anchors": ["src/streaming/zarrv2.array.writer.cpp:write_array_metadata_", "src/streaming/zarrv3.array.writer.cpp:write_array_metadata_"]}
{"id": "C10", "title": "Metadata files hold exactly the last document written", "statement": "Array metadata is rewritten in place at offset 0 without truncation; nevertheless after any number of rewrites the file contains exactly the latest JSON document with no trailing bytes of an earlier one.", "quantifier": "all histories of rewrites produced by a stream; sizes within the limits of the fixed-width arithmetic (DESIGN.md, Limits: array size + chunk size up to 2^32, fewer than 2^32 pixels per frame, 2^31 chunks per append layer, 2^32 frames; multiscale: frames below 2 GiB, not int8); C23, C48 and C67 are about what happens beyond", "why_tests_cant": "Depends on the document length never shrinking over the stream's history.", "anchors": ["src/streaming/file.sink.cpp:FileSink::write", "src/streaming/zarrv2.array.writer.cpp:write_array_metadata_", "src/streaming/array.writer.cpp:make_metadata_sink_"]}
{"id": "C11", "title": "The store holds exactly the expected objects", "statement": "After n whole frames and destroy, a V2 level contains exactly the chunk files g/l1/../lx with g < ceil(n / frames per append chunk) and each l below the number of chunks along its dimension (no file missing, none extra), plus its metadata file when n > 0 and none when n = 0.", "quantifier": "all settings and all n; sizes within the limits of the fixed-width arithmetic (DESIGN.md, Limits: array size + chunk size up to 2^32, fewer than 2^32 pixels per frame, 2^31 chunks per append layer, 2^32 frames; multiscale: frames below 2 GiB, not int8); C23, C48 and C67 are about what happens beyond", "why_tests_cant": "Requires agreement of the path enumeration with the buffer enumeration for every shape.", "anchors": ["src/streaming/sink.creator.cpp:make_data_sink_paths_", "src/streaming/array.writer.cpp:make_data_sinks_", "src/streaming/array.writer.cpp:should_flush_", "src/streaming/array.writer.cpp:rollover_"]}
{"id": "C12", "title": "Object names never collide", "statement": "Different chunks, shards, levels and metadata documents of one stream are stored under different paths.", "quantifier": "all pairs of chunk coordinates, levels and metadata documents, all store paths", "why_tests_cant": "Injectivity of string rendering over unbounded integers.", "anchors": ["src/streaming/sink.creator.cpp:make_data_sink_paths_", "src/streaming/array.writer.cpp:make_data_sinks_", "src/streaming/array.writer.cpp:make_metadata_sink_", "src/streaming/sink.creator.cpp:make_metadata_sink_paths_"]}
{"id": "C13", "title": "Splitting the byte stream between append calls does not matter", "statement": "The dataset produced depends only on the concatenation of the bytes passed to ZarrStream_append, not on how they are cut into calls: frames may be split across calls arbitrarily.", "quantifier": "all byte strings and all ways of cutting them", "why_tests_cant": "There are infinitely many segmentations; the defect needs a cut inside a frame.", "anchors": ["src/streaming/zarr.stream.cpp:ZarrStream::append"]}
{"id": "C14", "title": "bytes_out tells how many bytes were consumed", "statement": "On success ZarrStream_append sets *bytes_out to the number of bytes of the caller's buffer that were consumed; it never exceeds bytes_in and equals it when no error occurs.", "quantifier": "all stream states and all buffer lengths", "why_tests_cant": "Depends on the carried-over partial frame.", "anchors": ["src/streaming/zarr.stream.cpp:ZarrStream::append", "src/streaming/acquire.zarr.cpp:ZarrStream_append"]}
{"id": "C15", "title": "append reads only the caller's buffer", "statement": "ZarrStream_append never reads memory outside [data, data + bytes_in) nor outside its internal frame buffer.", "quantifier": "all stream states and buffer lengths", "why_tests_cant": "Out-of-bounds reads are silent in tests without sanitizers and depend on carried state.", "anchors": ["src/streaming/zarr.stream.cpp:ZarrStream::append"]}
{"id": "C16", "title": "append always makes progress and terminates", "statement": "For every stream state and every buffer, the append loop ends after at most one more iteration than there are whole frames in the buffer plus one.", "quantifier": "all stream states and buffer lengths; sizes within the limits of the fixed-width arithmetic (DESIGN.md, Limits: array size + chunk size up to 2^32, fewer than 2^32 pixels per frame, 2^31 chunks per append layer, 2^32 frames; multiscale: frames below 2 GiB, not int8); C23, C48 and C67 are about what happens beyond", "why_tests_cant": "Termination over all inputs.", "anchors": ["src/streaming/zarr.stream.cpp:ZarrStream::append"]}
{"id": "C17", "title": "Creating a multiscale stream terminates", "statement": "ZarrStream_create with multiscale enabled returns for every accepted settings struct; the number of levels is finite.", "quantifier": "all accepted settings", "why_tests_cant": "Non-termination shows only for particular chunk sizes.", "anchors": ["src/streaming/zarr.stream.cpp:create_writers_", "src/streaming/array.writer.cpp:downsample"]}
{"id": "C18", "title": "Pyramid levels have the documented sizes", "statement": "Level l of a multiscale dataset has every non-channel dimension of size ceil(size / 2^l) and channel dimensions unchanged, chunk and shard sizes never exceed those of the level above and stay nonzero, data type, path and compression are inherited, and the level number increases by one.", "quantifier": "all accepted settings and all levels", "why_tests_cant": "Unbounded number of levels.", "anchors": ["src/streaming/array.writer.cpp:downsample"]}
{"id": "C19", "title": "Downsampled frames always fit their level", "statement": "The frame produced for level l has exactly the byte size the level's array expects, so multiscale appends never fail with a frame-size mismatch.", "quantifier": "all frame sizes, data types and levels; sizes within the limits of the fixed-width arithmetic (DESIGN.md, Limits: array size + chunk size up to 2^32, fewer than 2^32 pixels per frame, 2^31 chunks per append layer, 2^32 frames; multiscale: frames below 2 GiB, not int8); C23, C48 and C67 are about what happens beyond", "why_tests_cant": "Rounding at odd sizes compounds over levels.", "anchors": ["src/streaming/zarr.stream.cpp:scale_image", "src/streaming/zarr.stream.cpp:write_multiscale_frames_", "src/streaming/array.writer.cpp:write_frame"]}
{"id": "C20", "title": "Pyramid pixels are local means", "statement": "Pixel (y, x) of level l is the (rounded-down) mean of the 2x2 block of level l-1 (edge pixels replicated), averaged over two consecutive frames, as declared by the local_mean multiscale metadata, for every pixel data type.", "quantifier": "all data types, frame sizes and pixel values", "why_tests_cant": "Quantifies over pixel values and all types; tests only check existence of levels.", "anchors": ["src/streaming/zarr.stream.cpp:scale_image", "src/streaming/zarr.stream.cpp:average_two_frames", "src/streaming/zarr.stream.cpp:write_multiscale_frames_"]}
{"id": "C21", "title": "Level l receives one frame per 2^l appended frames", "statement": "After n whole frames the array of level l holds floor(n / 2^l) frames.", "quantifier": "all n and all level counts; sizes within the limits of the fixed-width arithmetic (DESIGN.md, Limits: array size + chunk size up to 2^32, fewer than 2^32 pixels per frame, 2^31 chunks per append layer, 2^32 frames; multiscale: frames below 2 GiB, not int8); C23, C48 and C67 are about what happens beyond", "why_tests_cant": "Carry chain over unbounded n.", "anchors": ["src/streaming/zarr.stream.cpp:write_multiscale_frames_"]}
{"id": "C22", "title": "Invalid settings are rejected without side effects", "statement": "ZarrStream_create returns NULL and leaves the filesystem untouched for every settings struct that violates a documented constraint (NULL/empty path, bad version, bad type, bad compression, fewer than 3 dimensions, non-spatial last two dimensions, zero sizes, zero shard size in V3, malformed custom metadata, bad S3 names), and accepts every struct that satisfies them all on a writable parent.", "quantifier": "all settings structs", "why_tests_cant": "Full decision table over unbounded inputs.", "anchors": ["src/streaming/zarr.stream.cpp:validate_settings", "src/streaming/zarr.stream.cpp:validate_dimension", "src/streaming/zarr.stream.cpp:validate_compression_settings", "src/streaming/zarr.stream.cpp:validate_s3_settings"]}
{"id": "C23", "title": "Accepted settings establish the writers' preconditions", "statement": "Every settings struct accepted by ZarrStream_create yields dimensions with at least three entries, nonzero chunk sizes, nonzero inner/height/width sizes and (V3) nonzero shard sizes, at every pyramid level, so that no division by zero and no internal CHECK can fail in later appends.", "quantifier": "all accepted settings, all levels", "why_tests_cant": "Link between validation and arithmetic over all inputs.", "anchors": ["src/streaming/zarr.stream.cpp:validate_settings", "src/streaming/zarr.stream.cpp:commit_settings_", "src/streaming/array.writer.cpp:should_flush_"]}
{"id": "C24", "title": "NULL strings in settings are rejected, not dereferenced", "statement": "A NULL dimension name or a NULL S3 string in the settings makes ZarrStream_create return NULL.", "quantifier": "all settings structs with a NULL string", "why_tests_cant": "Undefined behaviour may appear to work.", "anchors": ["src/streaming/zarr.stream.cpp:validate_dimension", "src/streaming/zarr.stream.cpp:validate_s3_settings", "src/streaming/zarr.common.cpp:is_empty_string"]}
{"id": "C25", "title": "NULL arguments to append and destroy are harmless", "statement": "ZarrStream_append with a NULL stream, data or bytes_out returns InvalidArgument and changes nothing; ZarrStream_destroy(NULL) does nothing.", "quantifier": "all stream states, all argument combinations", "why_tests_cant": "All states.", "anchors": ["src/streaming/acquire.zarr.cpp:ZarrStream_append", "src/streaming/acquire.zarr.cpp:ZarrStream_destroy", "src/streaming/zarr.stream.cpp:finalize_stream"]}
{"id": "C26", "title": "Worker pool runs every accepted job exactly once", "statement": "Every job accepted by the pool is executed exactly once, by one worker, in every interleaving of pushers and workers, provided the pool is stopped (not torn down with work still queued); jobs are started in submission order, and the pool's shutdown returns only when all accepted jobs have finished.", "quantifier": "all numbers of workers and jobs, all interleavings", "why_tests_cant": "Schedules.", "anchors": ["src/streaming/thread.pool.cpp:push_job", "src/streaming/thread.pool.cpp:process_tasks_", "src/streaming/thread.pool.cpp:await_stop"]}
{"id": "C27", "title": "Worker pool shutdown is final and deadlock-free", "statement": "After shutdown begins no further job is accepted; from every reachable state shutdown can complete, every schedule of worker steps after shutdown is finite, and when no step is possible all workers have exited.", "quantifier": "all reachable states and schedules", "why_tests_cant": "Liveness over schedules.", "anchors": ["src/streaming/thread.pool.cpp:await_stop", "src/streaming/thread.pool.cpp:should_stop_", "src/streaming/thread.pool.cpp:process_tasks_"]}
{"id": "C28", "title": "Results do not depend on the worker schedule", "statement": "For any number of worker threads and any schedule of the parallel jobs of a whole session (file creation, compression, chunk or shard writes of every flush), create, every append and destroy return the same values, and every file of the store ends with the same bytes; the events of each file keep their order relative to the events of the array document, so that crash guarantees hold for every schedule.", "quantifier": "all settings, append histories, pool sizes and interleavings of the jobs of all flushes of a session; sizes within the limits of the fixed-width arithmetic (DESIGN.md, Limits: array size + chunk size up to 2^32, fewer than 2^32 pixels per frame, 2^31 chunks per append layer, 2^32 frames; multiscale: frames below 2 GiB, not int8); C23, C48 and C67 are about what happens beyond", "why_tests_cant": "Schedules.", "anchors": ["src/streaming/zarrv2.array.writer.cpp:flush_impl_", "src/streaming/zarrv3.array.writer.cpp:flush_impl_", "src/streaming/array.writer.cpp:compress_buffers_"]}
{"id": "C29", "title": "Parallel creation reports every failure", "statement": "Creating the directories and files of a chunk group returns true only if every creation succeeded, in every interleaving, and no worker touches the caller's local state after the call has returned.", "quantifier": "all interleavings of the creation jobs", "why_tests_cant": "The window between count_down and the status update is a few instructions wide.", "anchors": ["src/streaming/sink.creator.cpp:make_dirs_", "src/streaming/sink.creator.cpp:make_files_"]}
{"id": "C30", "title": "Write failures surface to the user", "statement": "If writing any chunk or shard fails, a later ZarrStream_append (or the failing one) reports an error; a stream on which every append succeeded has stored every frame of the flushed chunk groups.", "quantifier": "all failure patterns of the underlying storage, V2 and V3, file and S3", "why_tests_cant": "Fault patterns are unbounded and need fault injection.", "anchors": ["src/streaming/zarrv2.array.writer.cpp:flush_impl_", "src/streaming/zarrv3.array.writer.cpp:flush_impl_", "src/streaming/file.sink.cpp", "src/streaming/thread.pool.cpp:process_tasks_", "src/streaming/zarr.stream.cpp:set_error_"]}
{"id": "C31", "title": "S3 objects equal the bytes written", "statement": "For contiguous writes of any total size (one or many calls, below or above the 5 MiB part size) a finalized S3 object consists of exactly the written bytes in order; parts are numbered 1,2,3,..; every part except the last has exactly the part size, and no part is empty.", "quantifier": "all write sequences, all sizes up to 2^32 - 1 parts (20 PiB)", "why_tests_cant": "Boundary cases at multiples of the part size.", "anchors": ["src/streaming/s3.sink.cpp:write", "src/streaming/s3.sink.cpp:flush_part_", "src/streaming/s3.sink.cpp:flush_", "src/streaming/s3.sink.cpp:put_object_"]}
{"id": "C32", "title": "Closing an S3 stream uploads everything", "statement": "After ZarrStream_destroy on an S3 stream every chunk or shard object containing appended data has been uploaded.", "quantifier": "all settings and frame counts, V2 and V3; sizes within the limits of the fixed-width arithmetic (DESIGN.md, Limits: array size + chunk size up to 2^32, fewer than 2^32 pixels per frame, 2^31 chunks per append layer, 2^32 frames; multiscale: frames below 2 GiB, not int8); C23, C48 and C67 are about what happens beyond", "why_tests_cant": "Depends on whether the stream ends on a shard boundary.", "anchors": ["src/streaming/array.writer.cpp:finalize_array", "src/streaming/array.writer.cpp:close_sinks_", "src/streaming/s3.sink.cpp:flush_"]}
{"id": "C33", "title": "S3 connections are conserved", "statement": "Every connection taken from the pool is eventually available again: the number of pooled plus borrowed connections is constant and a connection is never lent to two users, also when requests fail.", "quantifier": "all interleavings of get/return and all request outcomes", "why_tests_cant": "Exception paths and schedules.", "anchors": ["src/streaming/s3.connection.cpp:S3ConnectionPool", "src/streaming/s3.sink.cpp:create_multipart_upload_", "src/streaming/s3.sink.cpp:finalize_multipart_upload_"]}
{"id": "C34", "title": "A crash never leaves metadata ahead of data", "statement": "If the process dies at any instant, any array metadata visible on disk describes only frames whose chunk files are already completely on disk.", "quantifier": "all crash points, all flush schedules of the buffered file streams; sizes within the limits of the fixed-width arithmetic (DESIGN.md, Limits: array size + chunk size up to 2^32, fewer than 2^32 pixels per frame, 2^31 chunks per append layer, 2^32 frames; multiscale: frames below 2 GiB, not int8); C23, C48 and C67 are about what happens beyond", "why_tests_cant": "Crash points.", "anchors": ["src/streaming/array.writer.cpp:flush_", "src/streaming/array.writer.cpp:rollover_", "src/streaming/file.sink.cpp", "src/streaming/array.writer.cpp:finalize_array"]}
{"id": "C35", "title": "Completed chunk groups survive a crash", "statement": "Once an append call that completes a chunk group has returned, the chunk files of that group are complete on disk and no later append modifies them.", "quantifier": "all crash points after the call, all later appends; sizes within the limits of the fixed-width arithmetic (DESIGN.md, Limits: array size + chunk size up to 2^32, fewer than 2^32 pixels per frame, 2^31 chunks per append layer, 2^32 frames; multiscale: frames below 2 GiB, not int8); C23, C48 and C67 are about what happens beyond", "why_tests_cant": "Crash points and histories.", "anchors": ["src/streaming/array.writer.cpp:rollover_", "src/streaming/array.writer.cpp:close_sinks_", "src/streaming/zarrv2.array.writer.cpp:should_rollover_"]}
{"id": "C36", "title": "Memory use per array is constant", "statement": "The number and size of the chunk buffers held between calls do not depend on how many frames were appended.", "quantifier": "all settings and histories; sizes within the limits of the fixed-width arithmetic (DESIGN.md, Limits: array size + chunk size up to 2^32, fewer than 2^32 pixels per frame, 2^31 chunks per append layer, 2^32 frames; multiscale: frames below 2 GiB, not int8); C23, C48 and C67 are about what happens beyond", "why_tests_cant": "Unbounded histories.", "anchors": ["src/streaming/array.writer.cpp:make_buffers_", "src/streaming/zarr.dimension.cpp:number_of_chunks_in_memory"]}
{"id": "C37", "title": "Disabled compressor means uncompressed data", "statement": "Settings that select ZarrCompressor_None produce uncompressed, readable chunks.", "quantifier": "all accepted compression settings", "why_tests_cant": "Interaction of validation, codec naming and the compression job.", "anchors": ["src/streaming/zarr.stream.cpp:validate_compression_settings", "src/streaming/zarr.stream.cpp:create_writers_", "src/streaming/blosc.compression.params.cpp:blosc_codec_to_string"]}
{"id": "C38", "title": "Data type names are faithful", "statement": "The dtype string stored in V2 and V3 metadata decodes to the item size and kind of the configured data type, and different data types get different strings.", "quantifier": "all data types and both versions; sizes within the limits of the fixed-width arithmetic (DESIGN.md, Limits: array size + chunk size up to 2^32, fewer than 2^32 pixels per frame, 2^31 chunks per append layer, 2^32 frames; multiscale: frames below 2 GiB, not int8); C23, C48 and C67 are about what happens beyond", "why_tests_cant": "Finite table; settled exhaustively.", "anchors": ["src/streaming/zarrv2.array.writer.cpp:sample_type_to_dtype", "src/streaming/zarrv3.array.writer.cpp:sample_type_to_dtype", "src/streaming/zarr.common.cpp:bytes_of_type"]}
{"id": "C39", "title": "Metadata documents are valid JSON that decodes to the settings", "statement": "Every metadata document the stream writes parses as JSON and yields exactly the values written (shapes, chunk sizes, names with any characters, axis units, the reduction behind a pyramid, compression parameters).", "quantifier": "all settings, all dimension names; sizes within the limits of the fixed-width arithmetic (DESIGN.md, Limits: array size + chunk size up to 2^32, fewer than 2^32 pixels per frame, 2^31 chunks per append layer, 2^32 frames; multiscale: frames below 2 GiB, not int8); C23, C48 and C67 are about what happens beyond", "why_tests_cant": "Escaping and nesting over all strings.", "anchors": ["src/streaming/zarrv2.array.writer.cpp:write_array_metadata_", "src/streaming/zarrv3.array.writer.cpp:write_array_metadata_", "src/streaming/zarr.stream.cpp:make_multiscale_metadata_"]}
{"id": "C40", "title": "Multiscale metadata matches the levels written", "statement": "The multiscales metadata lists one dataset per level, in order, with path equal to the level number and with scale factors equal to the ratio between the level-0 size and the level's size along each dimension.", "quantifier": "all accepted settings and numbers of levels", "why_tests_cant": "All dimension configurations.", "anchors": ["src/streaming/zarr.stream.cpp:make_multiscale_metadata_", "src/streaming/array.writer.cpp:downsample"]}
{"id": "C41", "title": "Log level round-trips and filters", "statement": "Zarr_get_log_level returns the last level successfully set; invalid levels are rejected with InvalidArgument and change nothing; exactly the messages at or above the current level are emitted; the level never influences data or results. From Python the same holds for set_log_level and get_log_level: exactly the members of LogLevel are accepted, anything else raises and changes nothing, and the level after the import is INFO.", "quantifier": "all sequences of set/log calls, and all Python objects passed", "why_tests_cant": "Histories.", "anchors": ["src/logger/logger.cpp", "src/logger/logger.hh", "src/streaming/acquire.zarr.cpp:Zarr_set_log_level", "python/acquire-zarr-py.cpp:set_log_level"]}
{"id": "C42", "title": "Status messages are total and unambiguous", "statement": "Every status code has a message, different defined codes have different messages, and undefined codes get the generic message.", "quantifier": "all integer codes", "why_tests_cant": "Finite but includes out-of-range codes.", "anchors": ["src/streaming/acquire.zarr.cpp:Zarr_get_status_message"]}
{"id": "C43", "title": "Dimension arrays are neither leaked nor freed twice", "statement": "Any sequence of create/destroy calls on a settings struct keeps exactly one live array when dimension_count > 0 and none otherwise; each allocation is freed at most once; failed creates leave the struct unchanged.", "quantifier": "all call sequences, all requested counts, all allocation outcomes", "why_tests_cant": "Histories and allocation failures.", "anchors": ["src/streaming/acquire.zarr.cpp:ZarrStreamSettings_create_dimension_array", "src/streaming/acquire.zarr.cpp:ZarrStreamSettings_destroy_dimension_array"]}
{"id": "C44", "title": "Strings are trimmed exactly", "statement": "trim removes exactly the leading and trailing whitespace: the result has none at either end, is a contiguous substring whose removed ends are all whitespace, is idempotent, and is empty iff the input is all whitespace.", "quantifier": "all strings", "why_tests_cant": "All strings.", "anchors": ["src/streaming/zarr.common.cpp:trim"]}
{"id": "C45", "title": "Vectorized writes land at the requested offset", "statement": "write_vectors(buffers, offset) stores the concatenation of the buffers at byte `offset` of the file and changes nothing else; buffer sizes are rounded up to the least multiple of the page size.", "quantifier": "all offsets, all buffer lists, all power-of-two page sizes", "why_tests_cant": "Offsets above 2 GiB are impractical in tests.", "anchors": ["src/streaming/vectorized.file.writer.cpp:write_vectors", "src/streaming/vectorized.file.writer.cpp:align_to_page_"]}
{"id": "C46", "title": "Python append stores the logical array", "statement": "Appending any numpy array through the Python binding stores its elements in C order, whatever its memory layout.", "quantifier": "all shapes, strides and contents", "why_tests_cant": "All layouts.", "anchors": ["python/acquire-zarr-py.cpp:PyZarrStream::append"]}
{"id": "C47", "title": "Printing S3 settings does not reveal the secret", "statement": "The repr of S3Settings shows at most the first five characters of the secret access key.", "quantifier": "all secrets", "why_tests_cant": "All strings.", "anchors": ["python/acquire-zarr-py.cpp:PyZarrS3Settings::repr"]}
{"id": "C48", "title": "Streams keep working for any number of frames", "statement": "The placement of frames remains correct for arbitrarily long acquisitions (more than 2^32 frames).", "quantifier": "all frame counts", "why_tests_cant": "2^32 frames cannot be written in a test.", "anchors": ["src/streaming/array.writer.hh:frames_written_", "src/streaming/array.writer.cpp:write_frame"]}
{"id": "C49", "title": "Creating a stream replaces the old dataset", "statement": "After ZarrStream_create on an existing store and destroy, the store holds only objects of the new dataset: nothing of an earlier dataset at that location is left.", "quantifier": "all settings, all earlier contents, store paths with and without file://", "why_tests_cant": "All earlier contents and path spellings.", "anchors": ["src/streaming/zarr.stream.cpp:ZarrStream_s::create_store_", "src/streaming/sink.creator.cpp:SinkCreator::make_data_sink_paths_"]}
{"id": "C50", "title": "Every metadata file of a finished dataset is valid JSON", "statement": "After destroy, every metadata file in the store (array, group, attribute and external metadata) is a complete JSON document.", "quantifier": "all accepted settings and frame counts; sizes within the limits of the fixed-width arithmetic (DESIGN.md, Limits: array size + chunk size up to 2^32, fewer than 2^32 pixels per frame, 2^31 chunks per append layer, 2^32 frames; multiscale: frames below 2 GiB, not int8); C23, C48 and C67 are about what happens beyond", "why_tests_cant": "All settings and histories.", "anchors": ["src/streaming/zarr.stream.cpp:ZarrStream_s::create_metadata_sinks_", "src/streaming/sink.creator.cpp:SinkCreator::make_metadata_sink_paths_", "src/streaming/zarr.stream.cpp:ZarrStream_s::finalize_stream"]}
{"id": "C51", "title": "A failed S3 part never yields a shortened object reported complete", "statement": "If the upload of some part of an object fails, the stream never completes that object from the remaining parts while the calls that follow report success: an object whose finalization is reported successful has all the bytes written to it.", "quantifier": "all sequences of writes, all patterns of server failures", "why_tests_cant": "Every pattern of failed requests.", "anchors": ["src/streaming/s3.sink.cpp:S3Sink::write", "src/streaming/s3.sink.cpp:S3Sink::flush_part_", "src/streaming/s3.sink.cpp:S3Sink::flush_"]}
{"id": "C52", "title": "A Python stream is created with exactly the settings given", "statement": "Creating a stream from Python settings behaves as ZarrStream_create with the same values: every field is passed on unchanged, None becomes NULL.", "quantifier": "all Python settings objects", "why_tests_cant": "All strings and all combinations of optional fields.", "anchors": ["python/acquire-zarr-py.cpp:PyZarrStream::PyZarrStream"]}
{"id": "C53", "title": "The array document of a finished V3 dataset describes every appended frame", "statement": "After append calls that all succeed and destroy, the array document of every level of a V3 store exists and declares the number of frames appended to that level.", "quantifier": "all accepted settings, all shard sizes, all frame counts and levels; sizes within the limits of the fixed-width arithmetic (DESIGN.md, Limits: array size + chunk size up to 2^32, fewer than 2^32 pixels per frame, 2^31 chunks per append layer, 2^32 frames; multiscale: frames below 2 GiB, not int8); C23, C48 and C67 are about what happens beyond", "why_tests_cant": "Every frame count relative to every chunk and shard size.", "anchors": ["src/streaming/zarrv3.array.writer.cpp:ZarrV3ArrayWriter::flush_impl_", "src/streaming/array.writer.cpp:ArrayWriter::write_frame", "src/streaming/array.writer.cpp:finalize_array"]}
{"id": "C54", "title": "A V3 store holds exactly the expected objects", "statement": "After a successful session the files under a V3 store are exactly the stream documents, one array document per level that covers a frame of it, and one shard file per position of the shard grid covering the frames of the level.", "quantifier": "all accepted settings, all frame counts, all names of files under the store; sizes within the limits of the fixed-width arithmetic (DESIGN.md, Limits: array size + chunk size up to 2^32, fewer than 2^32 pixels per frame, 2^31 chunks per append layer, 2^32 frames; multiscale: frames below 2 GiB, not int8); C23, C48 and C67 are about what happens beyond", "why_tests_cant": "All names and all histories.", "anchors": ["src/streaming/zarrv3.array.writer.cpp", "src/streaming/sink.creator.cpp:SinkCreator::make_data_sinks", "src/streaming/zarr.stream.cpp:ZarrStream_s::create_metadata_sinks_"]}
{"id": "C55", "title": "A chunk that cannot be compressed is not replaced by nothing", "statement": "If Blosc cannot compress a chunk (too large, or an error code), the chunk is either stored in a form that decodes to it or a failure is reported; a successful session never stores an empty chunk.", "quantifier": "all accepted settings with compression, all chunk sizes, all frames, any Blosc library that meets its documented contract", "why_tests_cant": "Needs chunks over 2 GiB and every return code.", "anchors": ["src/streaming/array.writer.cpp:ArrayWriter::compress_buffers_"]}
{"id": "C56", "title": "A background failure is reported by the next append", "statement": "If a compression or write job run in the background on behalf of an append call fails, then the next call of append returns an error.", "quantifier": "all numbers of workers, all programs of append calls, all schedules of caller and workers, all patterns of failing jobs", "why_tests_cant": "The report is made after the caller has been released, so the outcome depends on the schedule.", "anchors": ["src/streaming/thread.pool.cpp:zarr::ThreadPool::process_tasks_", "src/streaming/zarr.stream.cpp:ZarrStream_s::set_error_", "src/streaming/zarr.stream.cpp:ZarrStream_s::append", "src/streaming/zarrv2.array.writer.cpp:ZarrV2ArrayWriter::flush_impl_"]}
{"id": "C57", "title": "Chunk buffers are free of data races", "statement": "Under no schedule do two threads access the same chunk buffer at the same time.", "quantifier": "all numbers of workers, all programs of append calls, all schedules, all chunk and shard shapes", "why_tests_cant": "A race shows only under particular schedules.", "anchors": ["src/streaming/array.writer.cpp:ArrayWriter::compress_buffers_", "src/streaming/zarrv2.array.writer.cpp:ZarrV2ArrayWriter::flush_impl_", "src/streaming/zarrv3.array.writer.cpp:ZarrV3ArrayWriter::flush_impl_"]}
{"id": "C58", "title": "The error state is free of data races", "statement": "Under no schedule is the error message of a stream assigned by one thread while another thread reads or assigns it.", "quantifier": "all numbers of workers, all programs of append calls, all schedules, all patterns of failing jobs", "why_tests_cant": "A race shows only under particular schedules.", "anchors": ["src/streaming/zarr.stream.cpp:ZarrStream_s::set_error_", "src/streaming/zarr.stream.cpp:ZarrStream_s::append", "src/streaming/thread.pool.cpp:zarr::ThreadPool::process_tasks_"]}
{"id": "C59", "title": "A stream that has reported an error keeps reporting it", "statement": "Once an append call has been refused because of a background failure, every later append call is refused.", "quantifier": "all numbers of workers, all programs of append calls, all schedules, all patterns of failing jobs", "why_tests_cant": "Later failures and all their orders.", "anchors": ["src/streaming/zarr.stream.cpp:ZarrStream_s::set_error_", "src/streaming/zarr.stream.cpp:ZarrStream_s::append", "src/streaming/zarrv3.array.writer.cpp:ZarrV3ArrayWriter::flush_impl_"]}
{"id": "C60", "title": "Append returns", "statement": "With at least one worker, every call of append returns: caller and workers neither deadlock nor run for ever, whatever jobs fail.", "quantifier": "all positive numbers of workers, all programs of append calls, all schedules, all patterns of failing jobs", "why_tests_cant": "Deadlocks show only under particular schedules; termination is about all of them.", "anchors": ["src/streaming/thread.pool.cpp:zarr::ThreadPool::process_tasks_", "src/streaming/array.writer.cpp:ArrayWriter::compress_buffers_", "src/streaming/zarrv2.array.writer.cpp:ZarrV2ArrayWriter::flush_impl_", "src/streaming/zarrv3.array.writer.cpp:ZarrV3ArrayWriter::flush_impl_"]}
{"id": "C61", "title": "A multiscale stream does not accumulate frame buffers", "statement": "The memory held for downscaled frames does not grow with the number of appended frames, no buffer is released twice, and destroy releases all of it.", "quantifier": "all numbers of levels, all numbers of frames", "why_tests_cant": "Unbounded histories; a leak of a frame per call is invisible to functional tests.", "anchors": ["src/streaming/zarr.stream.cpp:ZarrStream_s::write_multiscale_frames_", "src/streaming/zarr.stream.cpp:scale_image", "src/streaming/zarr.stream.cpp:finalize_stream"]}
{"id": "C62", "title": "Destroy releases the stream", "statement": "ZarrStream_destroy frees the stream with its threads and files, as documented; if that fails because of storage, it can be called again.", "quantifier": "all histories, all patterns of failing storage operations, any number of calls of destroy, any iteration order of the documents", "why_tests_cant": "Every combination of failing operations over repeated calls.", "anchors": ["src/streaming/acquire.zarr.cpp:ZarrStream_destroy", "src/streaming/zarr.stream.cpp:finalize_stream", "src/streaming/zarr.stream.cpp:ZarrStream_s::write_group_metadata_", "src/streaming/array.writer.cpp:zarr::finalize_array"]}
{"id": "C63", "title": "Streams with different stores do not interfere", "statement": "Streams that write to different directories, neither inside the other, can run at the same time in one file system: the files of each are as if it had run alone, also if other streams crash, and files outside all stores are not touched. The same holds for the objects of streams that upload to one bucket below different names.", "quantifier": "all numbers of streams, all settings, calls and storage behaviours, all interleavings of their actions, all crash points of the other streams", "why_tests_cant": "All interleavings of any number of streams.", "anchors": ["src/streaming/zarr.stream.cpp:ZarrStream_s::create_store_", "src/streaming/sink.creator.cpp:SinkCreator", "src/streaming/array.writer.cpp:ArrayWriter", "src/streaming/file.sink.cpp:FileSink"]}
{"id": "C64", "title": "Chunking, sharding and compression do not change the data", "statement": "Two recordings of the same frames with the same array extents and data type show a reader the same array, whatever chunk sizes, shard sizes, compression, format version, store location and distribution of the frames over append calls were chosen.", "quantifier": "all pairs of accepted settings with the same shape, all frames, all coordinates", "why_tests_cant": "Pairs of configurations: a relational property over unbounded settings.", "anchors": ["src/streaming/array.writer.cpp:ArrayWriter::write_frame_to_chunks_", "src/streaming/zarrv2.array.writer.cpp:ZarrV2ArrayWriter::flush_impl_", "src/streaming/zarrv3.array.writer.cpp:ZarrV3ArrayWriter::flush_impl_", "src/streaming/array.dimensions.cpp:ArrayDimensions"]}
{"id": "C65", "title": "Finished objects are closed for good", "statement": "Once the file or object of a chunk or shard has been finished, nothing touches it again: not later append calls, not failing ones, not appending on after errors, not destroy. Frames of completed chunk groups stay readable whatever fails later.", "quantifier": "all settings, all histories of append calls with any data, storage that behaves differently in every call (directories, sinks, writes, closings, compression may fail), successful or failing destroy, all schedules of the worker threads; sizes within the limits of the fixed-width arithmetic (DESIGN.md, Limits: array size + chunk size up to 2^32, fewer than 2^32 pixels per frame, 2^31 chunks per append layer, 2^32 frames; multiscale: frames below 2 GiB, not int8); C23, C48 and C67 are about what happens beyond", "why_tests_cant": "All failure points over unbounded histories of calls going on after errors.", "anchors": ["src/streaming/array.writer.cpp:ArrayWriter::write_frame", "src/streaming/array.writer.cpp:ArrayWriter::rollover_", "src/streaming/zarrv2.array.writer.cpp:ZarrV2ArrayWriter::flush_impl_", "src/streaming/zarrv3.array.writer.cpp:ZarrV3ArrayWriter::flush_impl_", "src/streaming/zarr.stream.cpp:ZarrStream_s::append"]}
{"id": "C66", "title": "A failed append call does not damage other frames", "statement": "If an append call reports an error, the frames accepted by other calls, before or after it, are stored at their places or not at all; none is replaced by another frame or stored in a form a reader cannot decode.", "quantifier": "all settings, all histories with failing calls, all kinds of storage failure", "why_tests_cant": "All failure points; the damage appears only in a later call.", "anchors": ["src/streaming/array.writer.cpp:ArrayWriter::write_frame", "src/streaming/array.writer.cpp:ArrayWriter::flush_", "src/streaming/zarr.stream.cpp:ZarrStream_s::append", "src/streaming/acquire.zarr.cpp:ZarrStream_append"]}
{"id": "C67", "title": "Multiscale works for every data type", "statement": "Appending whole frames to a multiscale stream is defined behaviour for every supported data type and all pixel values.", "quantifier": "all data types, frame sizes and pixel values", "why_tests_cant": "All pixel values of all frames; the undefined conversion shows only for some of them, and usually not as a crash.", "anchors": ["src/streaming/zarr.stream.cpp:scale_image", "src/streaming/zarr.stream.cpp:average_two_frames", "src/streaming/zarr.stream.cpp:ZarrStream_s::write_multiscale_frames_"]}
{"id": "C68", "title": "Metadata of an S3 stream", "statement": "After ZarrStream_destroy on an S3 stream whose server confirms every request, the object of every metadata document holds the last complete form of the document, with the same contents a filesystem store would have, although the stream rewrote it many times; documents that were never written leave the bucket as it was.", "quantifier": "all settings, frame counts, both versions, all earlier bucket contents, part sizes; sizes within the limits of the fixed-width arithmetic (DESIGN.md, Limits: array size + chunk size up to 2^32, fewer than 2^32 pixels per frame, 2^31 chunks per append layer, 2^32 frames; multiscale: frames below 2 GiB, not int8); C23, C48 and C67 are about what happens beyond", "why_tests_cant": "A document is buffered, rewritten from its start and uploaded once; whether the last form wins depends on how often and with which sizes it was rewritten.", "anchors": ["src/streaming/s3.sink.cpp:write", "src/streaming/s3.sink.cpp:flush_", "src/streaming/array.writer.cpp:finalize_array", "src/streaming/zarr.stream.cpp:finalize_stream"]}
{"id": "C69", "title": "Requests do not wait for ever for a connection", "statement": "Threads that upload objects over a pool of at least one connection finish: whichever waiting thread is notified when a connection comes back, whoever takes the connection first and whatever spurious wake-ups happen, no wake-up is lost and all uploads are made after finitely many steps, provided no call throws.", "quantifier": "all numbers of threads and connections, all uploads and replies without exceptions, all schedules, all choices of the notified thread, all spurious wake-ups", "why_tests_cant": "Lost wake-ups appear only under particular interleavings.", "anchors": ["src/streaming/s3.connection.cpp:get_connection", "src/streaming/s3.connection.cpp:return_connection", "src/streaming/s3.sink.cpp:flush_part_"]}
{"id": "C70", "title": "The metadata of a running acquisition survives a crash", "statement": "From the return of ZarrStream_create on, if the process dies at any instant, every metadata document of the dataset is a complete JSON document (the array documents possibly missing until their first chunk is complete), so that what was stored can be opened; and once ZarrStream_destroy has returned success no file depends on the process any more.", "quantifier": "all settings, frame sequences, storage behaviours, crash points and buffered-write schedules", "why_tests_cant": "Whether buffered bytes have reached the operating system when the process dies is not under the control of a test.", "anchors": ["src/streaming/file.sink.cpp:write", "src/streaming/file.sink.cpp:flush_", "src/streaming/zarr.stream.cpp:write_base_metadata_", "src/streaming/zarr.stream.cpp:finalize_stream", "src/streaming/array.writer.cpp:finalize_array"]}
{"id": "C71", "title": "Open files are bounded and all closed by destroy", "statement": "Between calls a stream holds at most the root metadata documents, one array document per level and the data files of one chunk group (one shard group for version 3) per level open, however long the acquisition and whichever calls have failed; and when ZarrStream_destroy reports success no file of the stream is still open, and every file opened by ZarrStream_create was flushed and closed.", "quantifier": "all accepted settings, call sequences with failing and succeeding calls, storage behaviour chosen anew for every call, all worker schedules; sizes within the limits of the fixed-width arithmetic (DESIGN.md, Limits: array size + chunk size up to 2^32, fewer than 2^32 pixels per frame, 2^31 chunks per append layer, 2^32 frames; multiscale: frames below 2 GiB, not int8); C23, C48 and C67 are about what happens beyond", "why_tests_cant": "Handle leaks depend on which call fails at which point of which history; each one shows up only as an exhausted limit much later.", "anchors": ["src/streaming/array.writer.cpp:flush_", "src/streaming/array.writer.cpp:close_sinks_", "src/streaming/array.writer.cpp:finalize_array", "src/streaming/zarr.stream.cpp:finalize_stream", "src/streaming/sink.cpp:finalize_sink"]}
{"id": "C72", "title": "A crash of an S3 acquisition leaves only whole objects, the array document last", "statement": "If the process dies at any instant of an acquisition to S3, the bucket holds under every name either what it held before the acquisition or the object a completed acquisition would have left there, never a partial one; and if the array document of a level has appeared, all chunk or shard objects of that level are already final, so a reader of a version 2 dataset that finds the document reads all the frames (the last shards of version 3 are never uploaded, C32).", "quantifier": "all accepted settings, frames, call sequences with failing calls, server replies, part sizes, worker schedules and crash instants; sizes within the limits of the fixed-width arithmetic (DESIGN.md, Limits: array size + chunk size up to 2^32, fewer than 2^32 pixels per frame, 2^31 chunks per append layer, 2^32 frames; multiscale: frames below 2 GiB, not int8); C23, C48 and C67 are about what happens beyond", "why_tests_cant": "The crash instants and server replies are unbounded in number, and a test cannot kill the process inside the upload protocol.", "anchors": ["src/streaming/s3.sink.cpp:write", "src/streaming/s3.sink.cpp:flush_", "src/streaming/s3.sink.cpp:finalize_multipart_upload_", "src/streaming/array.writer.cpp:finalize_array", "src/streaming/array.writer.cpp:rollover_"]}
{"id": "C73", "title": "Every element of every numpy array appended from Python reads back", "statement": "A Python program makes a stream, appends C-contiguous numpy arrays of the stream's type whose last two axes are height and width (any leading axes, any number of arrays) and drops the stream: on healthy storage no call raises, and element m[index, y, x] of every array reads back from the dataset at the coordinate of its frame, frames being numbered over all arrays in C order; every other pixel reads as zero.", "quantifier": "all settings, arrays (shape, memory address, content), numbers of arrays, pixel coordinates, compression and storage states; sizes within the limits of the fixed-width arithmetic (DESIGN.md, Limits: array size + chunk size up to 2^32, fewer than 2^32 pixels per frame, 2^31 chunks per append layer, 2^32 frames; multiscale: frames below 2 GiB, not int8); C23, C48 and C67 are about what happens beyond", "why_tests_cant": "All shapes, memory contents and settings; the tests append a few arrays of one shape.", "anchors": ["python/acquire-zarr-py.cpp:PyZarrStream::PyZarrStream", "python/acquire-zarr-py.cpp:PyZarrStream::append", "src/streaming/zarr.stream.cpp:append"]}
{"id": "C74", "title": "Python arrays that do not match the stream are rejected", "statement": "append raises an exception if the array's type is not the stream's data type or its shape does not consist of whole frames; it does not store the bytes of the array as pixels of another type or shape.", "quantifier": "all settings, arrays and types", "why_tests_cant": "All combinations of array types and shapes with stream settings.", "anchors": ["python/acquire-zarr-py.cpp:PyZarrStream::append"]}
{"id": "C75", "title": "Assigning to an attribute of the Python settings takes effect", "statement": "After any sequence of statements that assign to attributes of a StreamSettings object, or of the objects obtained from its attributes, a stream is created with the values last assigned.", "quantifier": "all sequences of assignments and values", "why_tests_cant": "Arbitrary programs; whether an attribute is a reference or a copy shows only in the combination of an access, an assignment and a later use.", "anchors": ["python/acquire-zarr-py.cpp:PYBIND11_MODULE", "python/acquire-zarr-py.cpp:PyZarrStreamSettings"]}
{"id": "C76", "title": "Objects of every size can be stored on S3", "statement": "If the server fulfils every request that S3 permits (part numbers up to 10000, at most 5 GiB per request), then writing the bytes of an object of any size and finalizing it succeeds.", "quantifier": "all object sizes below 2^32 parts, all ways to cut the bytes into writes, all servers that keep to the limits", "why_tests_cant": "Objects of more than 50 GB (large version 3 shards) are out of reach of a unit test, and test servers do not enforce the limits.", "anchors": ["src/streaming/s3.sink.cpp:S3Sink::write", "src/streaming/s3.sink.cpp:S3Sink::flush_part_", "src/streaming/s3.sink.hh:max_part_size_"]}
{"id": "C77", "title": "Log lines of concurrent threads are whole and in order", "statement": "Whatever the schedule of the threads that log: standard output and standard error always consist of whole log lines, except perhaps the last one; lines of one thread are in the order of its calls, lines of one stream in the order of their time stamps; when all threads are done, exactly the messages at or above the level set at their moment have been written, errors to standard error and the others to standard output; no thread waits forever.", "quantifier": "all numbers of threads, all sequences of log calls and level changes per thread, all schedules down to single characters", "why_tests_cant": "A torn or lost line needs one of very many schedules; a test sees a few.", "anchors": ["src/logger/logger.hh:Logger::log", "src/logger/logger.cpp:Logger::set_log_level"]}
{"id": "C78", "title": "The log level may be changed while other threads work", "statement": "Zarr_set_log_level may be called at any time from any thread: it does not conflict with the use of the level by other threads, and once it has returned no message below the new level is written.", "quantifier": "all programs of threads that log and set the level, all schedules", "why_tests_cant": "The race and the late line need a level change at the moment at which a background thread logs.", "anchors": ["src/logger/logger.hh:Logger::log", "src/logger/logger.cpp:Logger::set_log_level", "src/streaming/acquire.zarr.cpp:Zarr_set_log_level", "python/acquire-zarr-py.cpp:set_log_level"]}
{"id": "C79", "title": "What an S3 stream reports as written is in the bucket", "statement": "Whatever the server answers (errors, dropped requests, refused parts): if append calls and the destroy call of an S3 stream return success, every chunk with appended data is in the bucket with exactly its bytes and reads back.", "quantifier": "all settings, frames, call sequences, all sequences of server replies per object; sizes within the limits of the fixed-width arithmetic (DESIGN.md, Limits: array size + chunk size up to 2^32, fewer than 2^32 pixels per frame, 2^31 chunks per append layer, 2^32 frames; multiscale: frames below 2 GiB, not int8); C23, C48 and C67 are about what happens beyond", "why_tests_cant": "Servers that fail at one particular request of one object cannot be enumerated, and test servers do not fail.", "anchors": ["src/streaming/s3.sink.cpp:S3Sink::write", "src/streaming/s3.sink.cpp:S3Sink::flush_", "src/streaming/zarrv2.array.writer.cpp:ZarrV2ArrayWriter::flush_impl_", "src/streaming/zarr.stream.cpp:ZarrStream_s::append"]}
{"id": "C80", "title": "A finished Zarr V2 dataset describes itself", "statement": "A reader that is given only the files and the name of the store (no settings) finds every level of the image in the group documents, learns shape, chunks, data type, byte order and compression of a level from its array document, and loads from the chunk files exactly the frames of the level, in order, followed by zeros up to the end of the last step. Level 0 holds the appended frames.", "quantifier": "all valid settings for version 2 on the file system, all frames and call sequences, every level that received a frame", "why_tests_cant": "Tests open a few datasets with one reader; that documents and chunk files agree for every shape, type, codec and number of frames cannot be enumerated.", "anchors": ["src/streaming/zarrv2.array.writer.cpp:ZarrV2ArrayWriter::write_array_metadata_", "src/streaming/zarr.stream.cpp:ZarrStream_s::write_group_metadata_", "src/streaming/zarr.stream.cpp:ZarrStream_s::make_multiscale_metadata_", "src/streaming/array.writer.cpp:ArrayWriter::write_frame_to_chunks_"]}
{"id": "C81", "title": "A finished Zarr V3 dataset describes itself", "statement": "The same for version 3: a reader that is given only the files and the name of the store finds the levels, learns shape, chunk grid, shards, data type and compression, and loads exactly the frames of every level that received a frame.", "quantifier": "all valid settings for version 3 on the file system, all frames and call sequences, every level that received a frame", "why_tests_cant": "As for version 2; in addition, the outcome depends on where in a shard the stream ends.", "anchors": ["src/streaming/zarrv3.array.writer.cpp:ZarrV3ArrayWriter::write_array_metadata_", "src/streaming/zarrv3.array.writer.cpp:ZarrV3ArrayWriter::flush_impl_", "src/streaming/zarr.stream.cpp:ZarrStream_s::write_group_metadata_"]}
{"id": "C82", "title": "Every level listed in the metadata of a finished dataset exists", "statement": "Every dataset path in the multiscales metadata of a finished dataset names an array that a reader can open.", "quantifier": "all valid settings, frames and call sequences without failures", "why_tests_cant": "It depends on the number of frames, levels and the place where the stream ends.", "anchors": ["src/streaming/zarr.stream.cpp:ZarrStream_s::make_multiscale_metadata_", "src/streaming/array.writer.cpp:ArrayWriter::flush_", "src/streaming/zarr.stream.cpp:ZarrStream_s::write_multiscale_frames_"]}
{"id": "C83", "title": "A finished dataset on S3 describes itself", "statement": "A reader that is given only the bucket and the name of the store finds every level, learns shape, chunks, shards, type and compression from the documents, and loads exactly the frames of every level that received a frame.", "quantifier": "all valid settings with S3, all frames and call sequences, servers that answer every request, every level", "why_tests_cant": "That documents, chunk and shard objects agree for every shape, type, codec, number of frames and part size cannot be enumerated; the outcome depends on where the stream ends.", "anchors": ["src/streaming/s3.sink.cpp:S3Sink::flush_", "src/streaming/zarrv3.array.writer.cpp:ZarrV3ArrayWriter::flush_impl_", "src/streaming/array.writer.cpp:ArrayWriter::finalize_", "src/streaming/zarr.stream.cpp:ZarrStream_s::write_group_metadata_"]}
{"id": "C84", "title": "Keyword arguments of the Python settings mean what the attributes mean", "statement": "Making a settings object with keyword arguments is the same as making it without and assigning each argument to the attribute of that name, in any order. Afterwards every attribute reads as the argument given for it, every other one has its initial value, arguments of the documented types are accepted, and a member of an enumeration stands for what its name says.", "quantifier": "all dictionaries of keyword arguments, all values, all four settings classes", "why_tests_cant": "Every combination, order and type of arguments.", "anchors": ["python/acquire-zarr-py.cpp:PYBIND11_MODULE", "python/acquire_zarr.pyi:StreamSettings"]}
{"id": "C85", "title": "The Python settings report arguments they cannot use", "statement": "A keyword argument that names no setting, or whose value the setting cannot take, raises an exception; it is never dropped or replaced by another value.", "quantifier": "all dictionaries of keyword arguments, all values", "why_tests_cant": "All names and all values; tests pass the arguments that exist.", "anchors": ["python/acquire-zarr-py.cpp:PYBIND11_MODULE"]}
{"id": "C86", "title": "Calls on an S3 stream return, whatever the server answers", "statement": "However many requests fail and however the threads are scheduled, every call on a stream that stores to S3 returns: it does not wait for ever for a connection that no thread will give back.", "quantifier": "all numbers of connections and workers, all sequences of calls and jobs, all replies of the server, all schedules", "why_tests_cant": "The calls that fail, their order among threads, and schedules of any length; a hang needs more failures than connections.", "anchors": ["src/streaming/s3.sink.cpp:S3Sink::create_multipart_upload_", "src/streaming/s3.connection.cpp:S3ConnectionPool::get_connection", "src/streaming/zarrv2.array.writer.cpp:ZarrV2ArrayWriter::flush_impl_"]}
{"id": "C87", "title": "Creating a stream gives a stream that can work, or NULL", "statement": "Whatever resources are missing, creating a stream returns: a stream with at least one worker thread, and at least one connection if it stores to S3, or NULL with no thread left running. With the same settings it works on every machine that has the resources.", "quantifier": "all numbers of cores (also unknown), all patterns of threads that cannot be started, all answers of the server, all failures of later steps", "why_tests_cant": "Threads that cannot be started at each position; tests run on a machine with resources.", "anchors": ["src/streaming/thread.pool.cpp:ThreadPool::ThreadPool", "src/streaming/zarr.stream.cpp:ZarrStream_s::create_store_", "src/streaming/s3.connection.cpp:S3ConnectionPool::S3ConnectionPool", "src/streaming/acquire.zarr.cpp:ZarrStream_create"]}
{"id": "C88", "title": "Failures in the background do not end the process", "statement": "Whatever fails in the work that a call hands to the worker threads (creating directories and files, compressing, writing), the process goes on, the call that waits for the work is released exactly once per piece of work, and a piece of work counts as successful only if it was done.", "quantifier": "all kinds, numbers and orders of jobs, all combinations of operations that fail or throw", "why_tests_cant": "Each operation of each job failing in each way; file system errors such as a directory that can no longer be searched do not occur in tests.", "anchors": ["src/streaming/thread.pool.cpp:ThreadPool::process_tasks_", "src/streaming/sink.creator.cpp:SinkCreator::make_dirs_", "src/streaming/zarrv3.array.writer.cpp:ZarrV3ArrayWriter::flush_impl_", "src/streaming/array.writer.cpp:ArrayWriter::compress_buffers_"]}
{"id": "C89", "title": "Running out of memory is reported", "statement": "If memory for a frame, a chunk or a frame of the pyramid cannot be had, ZarrStream_create returns NULL or ZarrStream_append returns an error; the process is not terminated.", "quantifier": "all array shapes, numbers of levels and frames, all points at which an allocation fails", "why_tests_cant": "Every allocation failing at every point; tests do not run out of memory.", "anchors": ["src/streaming/array.writer.cpp:ArrayWriter::make_buffers_", "src/streaming/array.writer.hh:make_buffers_ noexcept", "src/streaming/acquire.zarr.cpp:ZarrStream_append", "src/streaming/zarr.stream.cpp:ZarrStream_s::write_multiscale_frames_"]}
{"id": "C90", "title": "Custom metadata are in the dataset", "statement": "The JSON text given as custom metadata when a stream is created is in the finished dataset, as acquire.json (version 2) or meta/acquire.json (version 3): a JSON document with the same value. Without custom metadata (NULL or an empty text) the document is the empty object.", "quantifier": "all JSON texts, settings, frame counts; files and S3", "why_tests_cant": "All JSON values with all spellings, nestings and surrounding white space.", "anchors": ["src/streaming/zarr.stream.cpp:validate_custom_metadata", "src/streaming/zarr.stream.cpp:ZarrStream_s::commit_settings_", "src/streaming/zarr.stream.cpp:ZarrStream_s::write_external_metadata_"]}
{"id": "C91", "title": "Creating a stream deletes nothing but an old dataset, and only if it succeeds", "statement": "A call of create that fails leaves the files below the store path as they were, and a call that succeeds removes at most the objects of an earlier dataset there: other files below the path survive.", "quantifier": "all settings, all contents of the file system before the call, all failures of the storage", "why_tests_cant": "All points at which creation can fail and all previous contents of the directory.", "anchors": ["src/streaming/zarr.stream.cpp:ZarrStream_s::create_store_", "src/streaming/zarr.stream.cpp:ZarrStream_s::ZarrStream_s", "src/streaming/acquire.zarr.cpp:ZarrStream_create"]}
{"id": "C92", "title": "Settings that Python prints alike are alike", "statement": "If two settings objects (stream settings, dimensions, compression or S3 settings) print the same in Python, they have the same values, except for the part of an S3 secret that is not shown; what is printed is the constructor call with every value under its keyword.", "quantifier": "all pairs of settings objects", "why_tests_cant": "Unboundedly many texts, sizes and lists of dimensions; a test compares some printed forms with expected ones.", "anchors": ["python/acquire-zarr-py.cpp:PyZarrDimensionProperties::repr", "python/acquire-zarr-py.cpp:PyZarrS3Settings::repr", "python/acquire-zarr-py.cpp:PyZarrCompressionSettings::repr", "python/acquire-zarr-py.cpp:__repr__"]}
{"id": "C93", "title": "Every pixel of an acknowledged frame is stored, however large the frame", "statement": "When append returns the size of the frames it was given and the stream is closed without error, each pixel of each frame reads back at its coordinate, for frames of any number of pixels.", "quantifier": "all settings without pyramid (both versions, any chunking and compression), frame sizes and frame contents", "why_tests_cant": "The interesting frames have more than 2^32 pixels: no test appends them, and no list of sizes covers all ways a row and a tile can straddle the limit.", "anchors": ["src/streaming/array.writer.cpp:ArrayWriter::write_frame_to_chunks_", "src/streaming/zarr.common.cpp:bytes_of_frame"]}
{"id": "C94", "title": "The pyramid follows the full-resolution array however the bytes are cut into calls", "statement": "Whatever the sizes of the buffers passed to append, the lower resolutions of a multiscale stream are those of the frames that are stored in the full-resolution array.", "quantifier": "all multiscale settings and all sequences of append calls, cut anywhere, that stay inside their buffers", "why_tests_cant": "Cuts at frame boundaries, which tests use, behave correctly; the property must hold for every way of cutting any number of frames into any number of calls.", "anchors": ["src/streaming/zarr.stream.cpp:ZarrStream::append", "src/streaming/zarr.stream.cpp:write_multiscale_frames_"]}
{"id": "C95", "title": "Settings strings may be in any language", "statement": "Creating a stream is well defined whatever characters the store path, the custom metadata, the S3 strings and the dimension names consist of, and white space around them is removed in the same way as for ASCII strings.", "quantifier": "all settings and all strings of Unicode characters in UTF-8", "why_tests_cant": "Whether the behaviour is defined depends on the first and last bytes of each string; tests use ASCII, and an undefined call usually goes unnoticed.", "anchors": ["src/streaming/zarr.common.cpp:trim", "src/streaming/zarr.common.cpp:is_empty_string", "src/streaming/zarr.stream.cpp:validate_settings", "src/streaming/zarr.stream.cpp:commit_settings_"]}
{"id": "C96", "title": "A dimension name that cannot be stored is refused before anything is touched", "statement": "Dimension names are stored as they were given; a name that cannot be stored in the metadata makes ZarrStream_create fail before the dataset that is already at the store path is changed.", "quantifier": "all settings, all byte strings as dimension names, all contents of the store", "why_tests_cant": "Names are arbitrary bytes; tests use ASCII names and an empty store.", "anchors": ["src/streaming/zarr.stream.cpp:validate_dimension", "src/streaming/zarr.stream.cpp:make_multiscale_metadata_", "src/streaming/zarr.stream.cpp:write_base_metadata_", "src/streaming/zarr.stream.cpp:write_group_metadata_", "src/streaming/zarr.stream.cpp:create_store_"]}
{"id": "C97", "title": "A new dataset in a bucket shows nothing of an earlier one", "statement": "After a session on S3 at a place where another dataset was, a reader of the bucket sees the new dataset only: the same levels and the same contents as if the bucket had been empty.", "quantifier": "all valid settings with S3, all frames and call sequences, all earlier contents of the bucket, servers that answer every request, every level", "why_tests_cant": "Depends on everything an earlier session may have left, in combination with where the new one ends; tests use a fresh place for each dataset.", "anchors": ["src/streaming/zarr.stream.cpp:ZarrStream_s::create_store_", "src/streaming/s3.sink.cpp:S3Sink::flush_", "src/streaming/zarrv3.array.writer.cpp:ZarrV3ArrayWriter::flush_impl_", "src/streaming/array.writer.cpp:ArrayWriter::finalize_", "src/streaming/zarr.stream.cpp:ZarrStream_s::write_group_metadata_"]}
{"id": "C98", "title": "The image metadata follow OME-NGFF", "statement": "The image metadata of a finished dataset are valid OME-NGFF 0.4, as the README promises: two or three space axes, at most one time axis before them and at most one channel or custom axis between, unique axis names, and for every level a path and a scale with a positive factor for every axis.", "quantifier": "all accepted settings, all frames and call sequences, file system and S3", "why_tests_cant": "A validator checks one document; that the accepted settings and the generated documents agree with the standard concerns all numbers, types, orders and names of dimensions.", "anchors": ["src/streaming/zarr.stream.cpp:ZarrStream_s::make_multiscale_metadata_", "src/streaming/zarr.stream.cpp:validate_settings", "src/streaming/zarr.stream.cpp:dimension_type_to_string", "src/streaming/zarr.stream.cpp:ZarrStream_s::write_base_metadata_", "src/streaming/zarr.stream.cpp:ZarrStream_s::write_group_metadata_"]}
{"id": "C99", "title": "Credentials do not reach the dataset", "statement": "Nothing that a stream stores, and no value a call returns, depends on the S3 endpoint, access key or secret: two streams whose settings differ in nothing else, both accepted, store the same bytes under the same names in the same order.", "quantifier": "all pairs of accepted settings that differ only in the credentials, all append calls, all storage behaviours", "why_tests_cant": "That a secret does not leak is a statement about pairs of runs and all values; finding the secret in one output only tests one run.", "anchors": ["src/streaming/zarr.stream.cpp:ZarrStream_s::commit_settings_", "src/streaming/zarr.stream.cpp:ZarrStream_s::create_store_", "src/streaming/zarr.stream.cpp:validate_s3_settings"]}
{"id": "C100", "title": "When append returns, the data are written", "statement": "Append blocks while chunks are written and returns when all data has been written (include/acquire.zarr.h): once a call has returned, every pixel of every frame given to this call and the calls before it is on disk (or in the bucket), and is read back from there even if the process ends at that moment.", "quantifier": "all accepted settings, file system or S3, all sequences of append calls, all pixels; every content the operating system may hold at that moment", "why_tests_cant": "A test that closes the stream, or reads while the process is alive, does not see what is still in memory; the property must hold after every call of every history.", "anchors": ["include/acquire.zarr.h:ZarrStream_append", "src/streaming/array.writer.cpp:ArrayWriter::write_frame", "src/streaming/array.writer.cpp:ArrayWriter::should_flush_", "src/streaming/zarrv2.array.writer.cpp:ZarrV2ArrayWriter::flush_impl_", "src/streaming/zarrv3.array.writer.cpp:ZarrV3ArrayWriter::flush_impl_"]}
{"id": "C101", "title": "The store path names the place of the dataset, however it is spelled", "statement": "ZarrStream_create depends only on the place that the store path names: it is accepted exactly if the directory that will contain the dataset exists and is writable, and a reader that is given the same location finds the dataset there. White space around the path, a slash at its end, repeated slashes and the scheme file:// make no difference. The same holds for the key prefix of a dataset on S3.", "quantifier": "all store paths and key prefixes, all file systems and buckets, all other settings, all histories of the stream", "why_tests_cant": "Tests use a handful of well-formed paths; the property ranges over all spellings of a path and all states of the file system or bucket.", "anchors": ["include/acquire.zarr.h:ZarrStreamSettings", "src/streaming/zarr.stream.cpp:validate_filesystem_store_path", "src/streaming/zarr.stream.cpp:ZarrStream_s::commit_settings_", "src/streaming/sink.creator.cpp:SinkCreator::make_s3_objects_", "src/streaming/array.writer.cpp:ArrayWriter::make_data_sinks_"]}
{"id": "C102", "title": "The dataset stays where it was created", "statement": "A stream writes everything it stores below the place that the store path named when the stream was created, whatever the process does between and during the calls; in particular a change of the working directory does not move later chunks elsewhere.", "quantifier": "all settings, all histories of calls, all working directories at every moment of the session", "why_tests_cant": "Tests never change the working directory; the property ranges over all sequences of working directories, down to a different one for every storage operation.", "anchors": ["include/acquire.zarr.h:ZarrStreamSettings", "src/streaming/file.sink.cpp:FileSink::FileSink", "src/streaming/sink.creator.cpp:SinkCreator::make_files_", "src/streaming/zarr.stream.cpp:ZarrStream_s::commit_settings_"]}
{"id": "C103", "title": "A Python stream says whether it is active", "statement": "is_active() of a Python stream answers True as long as no append has raised an exception, and False from then on, so that a program can find out whether the stream still takes data.", "quantifier": "all Python programs that go on after exceptions, all arrays, all states of the storage at every call", "why_tests_cant": "Tests ask is_active on healthy streams only; the property ranges over all histories of failing and succeeding calls.", "anchors": ["python/acquire-zarr-py.cpp:PyZarrStream::is_active", "python/acquire-zarr-py.cpp:PyZarrStream::append", "src/streaming/zarr.stream.cpp:ZarrStream_s::append"]}
{"id": "C104", "title": "An S3 stream connects as the settings say", "statement": "Every connection of an S3 stream is made to the endpoint with the credentials of the settings (surrounding white space removed), and it is encrypted exactly if the endpoint asks for it, that is, if its scheme is https.", "quantifier": "all S3 settings, all outcomes of the connection tests", "why_tests_cant": "Tests use one endpoint; which connections are encrypted depends on all ways to write one.", "anchors": ["include/zarr.types.h:ZarrS3Settings", "src/streaming/s3.connection.cpp:S3Connection::S3Connection", "src/streaming/s3.connection.cpp:S3ConnectionPool::S3ConnectionPool", "src/streaming/zarr.stream.cpp:ZarrStream_s::commit_settings_", "src/streaming/zarr.stream.cpp:ZarrStream_s::create_store_"]}
{"id": "C105", "title": "The caller's memory is read only during the call, and only what was passed", "statement": "ZarrStream_create reads the settings structure and the structures and NUL-terminated strings its pointers lead to, and nothing else; ZarrStream_append reads only its bytes_in bytes; what they read may be freed or changed as soon as the call has returned, without effect on the stream. A Python stream is created from what the settings object holds.", "quantifier": "all settings and data, all contents of the memory in each call, Python and C", "why_tests_cant": "A read of freed memory or beyond the end of an array often goes unnoticed, and tests keep their settings alive.", "anchors": ["include/acquire.zarr.h:ZarrStreamSettings", "src/streaming/zarr.stream.cpp:validate_settings", "src/streaming/zarr.stream.cpp:ZarrStream_s::commit_settings_", "src/streaming/zarr.stream.hh:ZarrStream_s", "src/streaming/acquire.zarr.cpp:ZarrStream_append", "python/acquire-zarr-py.cpp:PyZarrStream::PyZarrStream"]}
{"id": "C106", "title": "No thread outlives its stream", "statement": "When ZarrStream_destroy has freed a stream, or ZarrStream_create has given one up, no thread of that stream runs any more or touches its memory, every piece of work handed to the threads is over and every failure among it has been passed to the error handler exactly once; once the threads have been told to stop, the stream is freed after finitely many steps.", "quantifier": "all numbers of threads, all programs of jobs (of append, of the flushes of destroy and of a creation that throws), all schedules", "why_tests_cant": "The error handler runs after the call that waits for the job has gone on; whether it can run on a freed stream depends on the schedule.", "anchors": ["src/streaming/acquire.zarr.cpp:ZarrStream_destroy", "src/streaming/zarr.stream.cpp:finalize_stream", "src/streaming/zarr.stream.cpp:ZarrStream::ZarrStream_s", "src/streaming/zarr.stream.hh:ZarrStream_s", "src/streaming/thread.pool.cpp:ThreadPool::~ThreadPool", "src/streaming/thread.pool.cpp:ThreadPool::await_stop", "src/streaming/thread.pool.cpp:ThreadPool::process_tasks_"]}
{"id": "C107", "title": "Directories are made whatever the order of the workers", "statement": "The worker threads that make the directories of a stream never make each other fail: whichever directories are there before and however the threads are interleaved, if the file system refuses nothing, every call that makes directories for data or metadata succeeds after finitely many steps, afterwards all its directories are there, each data file and each document of the store goes into one of them, and nothing else has been made but their ancestors.", "quantifier": "all dimensions, store paths and Zarr versions, all directories present before, all schedules of the system calls", "why_tests_cant": "std::filesystem::create_directories returns false, which the library calls a failure, when another thread makes the directory first; whether that can happen depends on the schedule.", "anchors": ["src/streaming/sink.creator.cpp:SinkCreator::make_dirs_", "src/streaming/sink.creator.cpp:SinkCreator::make_data_sink_paths_", "src/streaming/sink.creator.cpp:SinkCreator::make_metadata_sink_paths_"]}
