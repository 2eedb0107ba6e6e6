# Formal model of acquire-zarr: design

The model is Lean 4 (`/verif/lean`), core Lean plus single Mathlib modules. `properties.jsonl` lists the properties
(C01..), `MANIFEST.json` maps each to theorems, `AXIOMS.md` lists the axioms of every theorem named there,
`seeded/LOG.jsonl` records the experiments with wrong programs. `tools/` generates the three JSON/Markdown files.

## Layout

| directory | content |
|---|---|
| `Verif/Model/` | executable model, one file per source area; every definition cites the `/repo` file and lines it models |
| `Verif/Spec/` | small specifications that do not use the model's functions: row-major indexing, the logical array, Zarr v2/v3 readers, an RFC 8259 parser, local means, documented constraints, what survives a crash, what an S3 server stores, numpy element order, Blosc's contract, races |
| `Verif/Lemmas/` | proofs |
| `Verif/Props/` | the property theorems, one file per group, each with non-vacuity `example`s on concrete settings |

A reader who wants to know what a property says reads `Spec/` and the statement in `Props/`. The statements mention the model
only where the program itself is run (`createStream`, `append`, `runStream`, `fileInStore`, ...).

## Trusted base

* Lean's kernel (4.33.0). Every theorem is checked by it; no `native_decide`, no `bv_decide`, no axioms of our own. Closed
  facts about concrete settings use `decide`/`decide +kernel`, which the kernel evaluates.
* Axioms: at most `propext`, `Classical.choice`, `Quot.sound` (per theorem in `AXIOMS.md`).
* That the definitions in `Verif/Model` say what the C++ says. This is the part no tool checks here; every definition cites the
  lines it was transcribed from, and simplifications are stated in its comment and below.
* That the definitions in `Verif/Spec` say what the Zarr specifications, RFC 8259, S3, POSIX and the headers say.

## What is modelled

| source | model | not modelled |
|---|---|---|
| `zarr.dimension.{hh,cpp}` | `Model.Dimension` (all index functions, in fixed width) | - |
| `zarr.common.cpp` | `Model.Dimension`, `Model.ByteText`, `Model.Settings` (`trim`, `is_empty_string`, sizes, counts) | - |
| `array.writer.cpp` | `Model.Frame`, `Model.Writer`, `Model.Paths`, `Model.Downsample`, `Model.Blosc`, `Model.Memory` (allocations that fail) | log messages |
| `zarrv2.array.writer.cpp`, `zarrv3.array.writer.cpp` | `Model.Writer`, `Model.Meta` | - |
| `sink.cpp`, `file.sink.cpp` | `Model.Store`, `Spec.Crash`, `Model.WorkDir` (working directory) | failure to open an `ofstream` (as in the code, it goes unnoticed: `Env.write` = `silent`) |
| `sink.creator.cpp` | `Model.Paths`, `Model.Creation`, `Model.MakeDirs`, `Model.GroupMeta` | - |
| `s3.sink.cpp`, `s3.connection.cpp` | `Model.S3`, `Model.S3Store`, `Model.Connections`, `Model.ConnectionWait`, `Model.S3Calls`, `Model.Endpoint` | minio-cpp, HTTP, destruction of the connection pool |
| `thread.pool.cpp` | `Model.Pool`, `Model.Concurrent`, `Model.Reporting`, `Model.FlushJobs`, `Model.Lifetime` (the end of a stream), `Model.Startup` (threads that cannot be started), `Model.Jobs` (exceptions in jobs) | - |
| `zarr.stream.cpp` | `Model.Settings`, `Model.Stream`, `Model.GroupMeta`, `Model.Scale`, `Model.Heap`, `Model.Destroy`, `Model.Exceptions`, `Model.CreateEffects`, `Model.StorePath`, `Model.CallerMemory` | log messages |
| `blosc.compression.params.cpp` | `Model.Settings` | Blosc itself |
| `acquire.zarr.cpp`, `logger.cpp`, `logger.hh` | `Model.Api`, `Model.Logger` | the format of time stamps and of the arguments in log lines |
| `vectorized.file.writer.cpp` | `Model.VectorWriter` (POSIX and Windows) | the operating system's page cache |
| `python/acquire-zarr-py.cpp` | `Model.Python`, `Model.PySession`, `Model.PyKeywords`, `Model.PyLog`, `Model.PyObject`, `Model.PyMemory` | pybind11 (casts of lvalues copy; conversions of arguments as described in `Model.PyKeywords`, without `bytes`, `float` and foreign classes), reference counting |
| nlohmann-json `dump(4)` | `Model.Json` (the part the documents use) | the parser (`World.parseJson` is a parameter) |

## Modelling decisions and simplifications

* **Machine integers.** Sizes are `Nat`; every C++ expression evaluated in `uint32_t`/`size_t` that could wrap goes through
  `u32`/`u64` (`% 2^32`, `% 2^64`). Theorems about data carry `Fits` (`FitsV3` for shards; `Room` is `Fits` without the limit on pixels per frame), the sizes for which nothing wraps
  (`Model.Domain`); both are decidable and shown to hold of concrete settings. `int` loop counters are not wrapped, `Fits` keeps
  them below 2^31. C48 and C45 are about what happens beyond.
* **Outcomes.** `Res a = ok a | throw | ub`. Exceptions and undefined behaviour (out-of-bounds access, NULL dereference,
  out-of-range conversion) are distinct; running out of fuel (`none`) stands for a loop that has not ended.
* **Storage.** The writers emit a history (`List Ev`): `opened p`, `wrote p off bytes`, `finalized p`, `dropped p`. The file store is
  the replay of the history (`Model.Store`), an S3 bucket another one (`Model.S3Store`), a crash state a replay in which each
  file keeps what its `ofstream` had handed over (`Spec.Crash`).
* **External code is a parameter.** `Env`: Blosc (a function of parameters, item size and bytes that may fail), creation of sinks, the
  outcome of each write (`stored`, `failed`, `threw`, or `silent`: lost without notice) as a function of path, offset and data,
  finalization. `World`: status queries of the file system, the JSON parser on user metadata, whether the store directory can
  be created, the files before creation. S3 servers answer by an arbitrary function of the request number.
* **Hypotheses about it.** Read-back theorems assume `StorageOk` (writes succeed; Blosc succeeds for the configured
  parameters) and, with compression, `Decodes` (the reader's decoder inverts Blosc on inputs up to the chunk size), for V3 also
  `SmallOverhead` (Blosc adds at most 16 bytes), for S3 `NonemptyOutput`; about the custom metadata `JsonLib` (white space around a text does not matter) and
  `PrintsWhatItReads` (C90). Failure properties drop `StorageOk`.
* **Threads.** `Model.Writer` runs the jobs of a flush in queue order. `Model.Concurrent` is the same session with `n` workers that
  pop jobs from the queue and interleave their storage steps under an arbitrary schedule; C28 proves by a simulation that returns, final
  files and the order of events relevant to crashes are those of `Model.Stream`, so that theorems about the latter hold with threads.
  C57 proves that no two threads may touch the same buffer, so that job steps may be taken as atomic. The worker pool,
  creation jobs, connection pool and error reporting are transition systems over all schedules; sections under one mutex and
  single atomic accesses are one step; condition variables may wake up spuriously. In `Model.Stream` an error message of a
  worker is visible when append returns; `Model.Reporting` (C56, C58, C59) drops that.
* **Exceptions** discard the model state (the caller sees the failure); what remains of a stream after a failed destroy is
  `Model.Destroy`.
* **Crashes** are deaths of the process: bytes handed to the operating system survive, an `ofstream` hands over in order, at any time
  up to flush/close; power failure is out of scope. Worker events of one flush may be reordered (`SameOrder`).
* **Floating point.** `scale_image` and `average_two_frames` work on single bytes widened to `double`; all values are multiples of
  1/8 below 256, which the model represents exactly. `static_cast<uint32_t>(w_pad * h_pad * factor * bytes)` is taken as exact for
  results below 2^32 and undefined beyond.
* **Text.** Strings are lists of characters, stored as UTF-8; strings of other bytes as dimension names are C96, undefined classification of
  characters outside ASCII is C95, elsewhere it is taken as "not white space". The text after the first words of an error
  message is dropped; C41 proves that only its being empty matters. Secrets are counted in characters.
* **Not modelled at all:** memory allocation failure (except the dimension array, C43, and the chunk buffers, C89), big-endian hosts, CMake, the physical disk,
  time.

## Limits

The public types allow sizes for which the code's `uint32_t`, `int` and `size_t` expressions wrap. Properties about data are proved for all settings
that `ZarrStream_create` accepts and that satisfy (`ArrayDims.Fits`, `ArrayDims.FitsV3`, `Setup`, all decidable):

* every inner dimension: array size + chunk size at most 2^32; rows of a chunk below 2^31; pixels of a frame below 2^32; chunks of one append layer
  below 2^31, and their total size below 2^63 bytes; fewer than 2^32 frames in the session;
* version 3: chunk count + shard size at most 2^32 for every inner dimension, fewer than 2^31 chunks per shard, append chunk size times shard size
  below 2^32, frames and bytes per shard below 2^64, Blosc adds at most 16 bytes to a chunk (`SmallOverhead`);
* multiscale: frames below 2 GiB, and a type other than `int8` (whose downscaling has undefined behaviour for some negative pixels, C67; `Setup0` drops this restriction); the pyramid is finite
  (C17 says exactly when).

Beyond the limits: C23 (`accepted_sizes_violated`), C48 (2^32 frames), C93 (frames of more than 2^32 pixels), C67 (`int8`, 2 GiB frames), C45 (files over 2 GiB).

## Per property plan

`refinement` = invariant "state = specification of the frames so far", induction over frames. Where the code violates the property
the plan names what is proved instead; the manifest then says `partial` and lists the positive theorem (`_partial` or an exact
characterisation) together with the kernel-checked counterexample (`_violated`).

| id | model | proof |
|---|---|---|
| C01, C02, C03 | `Dimension`, `Frame`, `Writer` (V2), file replay | refinement; Zarr v2 reader in `Spec.ZarrV2` |
| C04, C08 | V3 flush, shard tables | refinement for one append chunk per shard, exact reader view for all; violated otherwise |
| C05, C06 | `writeFrameToChunks` | pointwise characterisation of the copy loop, mixed-radix injectivity |
| C07 | `shardIndexForChunk`, `shardInternalIndex` | mixed-radix bijection; violated as called by the writer |
| C09, C10, C53 | documents, rewriting in place | ceil-division, monotone document length; V3 exact |
| C11, C12, C54 | path construction | enumeration = row-major rank; injectivity of decimal rendering; exact set of files |
| C13 - C16 | `append` loop with `ub` outcome | exact behaviour for every state and, without multiscale, every sequence of calls (`append_cuts_exact`); violated for split frames |
| C17 - C21, C40 | `downsample`, level loop, `scale_image` | exact termination condition; level shapes; local mean for uint8, what is stored for every other type; exactly when the declared scale factors fit; violated otherwise |
| C22 - C25, C37, C38, C41 - C44, C47 | validation and API functions | decision logic against `Spec.Constraints`, tables, histories |
| C26, C27 | pool LTS | invariants over all schedules, decreasing measure |
| C28 | `Model.Concurrent`: session with `n` workers under any schedule | pool runs are interleavings; jobs of a phase touch disjoint files; simulation between the concurrent and the sequential session, file by file |
| C29 | creation job LTS | what returning true/false means; violated by schedules |
| C30 | writer with failing sinks | V2: success implies stored; V3: exactly which failures are reported; violated otherwise |
| C31, C32, C51 | S3 sink, bucket replay | induction over writes; exactly which shards are uploaded |
| C33 | connection pool LTS | conservation; violated when an exception drops a connection |
| C34, C35 | crash states | order of events, prefix argument over buffered writes |
| C36, C61 | buffers | chunk buffers: invariant; frame buffers: exact count of leaked ones |
| C39, C50 | JSON dump, independent parser | `parse (dump j) = j`; files after the session |
| C45 | vectorized writer | alignment, placement below 2 GiB; violated beyond |
| C46, C52 | Python binding | exactly which numpy arrays are appended as they look (`python_append_exact_partial`: the contiguous ones); settings conversion; violated otherwise |
| C48 | frame counter | up to 2^32 - 1 frames; violated at 2^32 |
| C49 | store creation | replay over old files; violated for `file://` |
| C55 | Blosc return codes | case analysis; violated when Blosc returns 0 (chunks over 2 GiB) |
| C56 - C60 | `Model.Reporting` LTS; `Model.FlushJobs`: the jobs of a flush, computed from `Model.Writer`, as its programs | permutation invariants over all schedules, decreasing measure; violated by late reports |
| C62 | `Model.Destroy` | exact condition for the first call; violated after a failure |
| C63 | sessions as action sequences (`Spec.Isolation`) | every event lies below the store (`Lemmas.Confined`, any calls and storage), then induction on the interleaving |
| C64 | pairs of sessions | corollary of the exact read-back theorems of C01 and C04; violated for several append chunks per shard |
| C65 | `Model.Exceptions`: what an exception leaves in writer and stream, calls going on with changing storage | invariant: finished objects lie below the current append index, open ones at it; agreement of the two stream models on successful calls |
| C66 | `Model.Exceptions` | refusal after a reported job error; simulation by the run on perfect storage with writes missing (`Lemmas.Thinned`, `Lemmas.ThinnedDestroy`): chunk files are exact, empty or missing (V2), shard files exact up to zeros, without an index, or missing (V3, one append chunk per shard); violated by shards that lose their index (a reader takes pixels for an index and gets another frame), failing compression (chunk stored uncompressed) and by calls after a thrown error (frame replaced, buffers compressed twice) |
| C67 | `Model.Scale`, stream model | exactly which multiscale sessions are undefined (`int8` frames with a 2 by 2 block whose mean as unsigned bytes is 128 or more); what the others store (`signed_mean_missed`); violated for `int8` |
| C68 | `Model.S3Store`, documents | life of a document (opened, rewritten at 0, finalized), replayed on the sink; contents from C09, C39, C53 |
| C69 | `Model.ConnectionWait` | invariant: if a thread sleeps, as many threads are awake in the wait as there are connections; decreasing measure; refinement to `Model.Connections` |
| C70 | `Spec.Crash` | invariant of the writer under any storage: only open sinks have buffered bytes, and the document is never closed before destroy |
| C71 | `Spec.Closed` (`openAfter`, `NothingOpen`) | invariant of the stream with exceptions: everything open in the history is held by the stream |
| C72 | `bucketAfter` of every beginning of every schedule (`Spec.Interleaving`), `Spec.ZarrV2` reader | a sink that is not closed has sent no request that creates an object; the document is closed after the data of its level |
| C73 | `Model.PySession` over `Model.Stream`, `Spec.Numpy` | C-contiguous arrays are the concatenation of their planes; reduction to C01/C04 |
| C74 | as C73 | the outcome depends only on the bytes; what is stored is computed for every array of the right number of bytes |
| C75 | `Model.PySession`, `Spec.Attributes` (what a program reads from each attribute) | an assignment changes what is read from its target only; violated for the copies made by getters |
| C76 | `Model.S3`, limits of S3 in `Props.S3Limits` | invariant over the log of requests; exact number of parts from C31; violated above 10000 parts |
| C77 | `Model.Logger`, `Spec.LogLines` | invariant: the streams are the lines so far without what the owner of the mutex has left to write; history of calls as ghost; decreasing measure |
| C78 | `Model.Logger`, `Spec.LogLines` | invariant; schedules with a race and with a late line, for all messages and levels |
| C79 | `Model.S3Store`, `Model.Stream` | C30 gives the history of a session without failures, C31 the object from one sink whose calls returned true; violated in destroy and in version 3 |
| C80 | `Model.Stream`, `Model.Meta`, `Model.GroupMeta` | a reader written from the Zarr specification (`Spec.Reader`) is run on the files after the session: C25 and C50 give the documents, C01 the elements; reading them in C order gives the frames |
| C81 | `Model.Stream`, `Model.Meta`, `Model.GroupMeta` | as C80 with C16 and C53; exactly what is loaded for every append shard size (`Spec.ShownShards`); violated with several append chunks per shard |
| C82 | `Model.Stream`, `Model.GroupMeta` | exact condition for both versions from C25, C53 and the reader of C80; violated for short streams |
| C83 | `Model.S3Store`, `Model.Stream`, `Model.Meta`, `Model.GroupMeta` | the reader of C80 on the objects of the bucket, from C32; exact for version 3, for every append shard size, where it is violated |
| C84 | `Model.PyKeywords`, `Spec.Keywords` | each constructor succeeds iff every known argument converts, with those values; setters of different attributes commute; violated for a `list` of dimensions |
| C85 | `Model.PyKeywords`, `Spec.Keywords` | out-of-range numbers and values of the wrong class make the constructor fail; unknown names change nothing, for every dictionary |
| C86 | `Model.S3Calls`: calling thread, workers, latch and connection pool in one transition system | invariant: connections free, held and lost add up; a measure decreases with each step; a step exists while a connection is left |
| C87 | `Model.Startup`: the constructor with threads and connections that may fail | the first failure ends each loop; exact condition for termination |
| C88 | `Model.Jobs`: the body of every job, statement by statement, and the worker without a handler | case analysis over the operations, induction over chunks and jobs |
| C89 | `Model.Memory`: allocations of frame, chunk and pyramid buffers, noexcept and the handlers of the C API, in a monad with exceptions and termination | induction over buffers, levels and frames; agreement with the writers and streams of the other models when every allocation succeeds (`Props.MemoryAgree`) |
| C90 | `Model.GroupMeta` and the session; `Spec.CustomJson`: the same JSON value; the JSON library is a parameter with a contract | composition of C39 with the library's contract; blank texts are not JSON |
| C91 | `Model.CreateEffects`: the constructor with its effects in every case | case analysis of the constructor; agreement with `Model.Stream` |
| C92 | `Model.Python`; `Spec.Shown`: equal values but for the rest of the secret | the printed form is cut at its separators, from the left |
| C93 | `Model.Frame` within `Room` (no limit on pixels per frame); `Spec.LargeFrames`: the frame that is stored | the copy loop is that of the exact loop on `seenFrame`; invariants of the writers (as for C01, C04) over `seenFrame` of the frames; `lastLit` for the violation |
| C94 | `Model.Stream.append` with every partial-frame path; `Spec.Append.sessionFrames`, `sessionPyramid` | two-list invariant (`StreamOk2`: frames of level 0, frames of the pyramid) over the calls and the close; comparison of the file history of every level with the sessions that pass these frames whole; concrete cut session for the violation |
| C95 | `Model.ByteText`: `trim` on bytes, with the precondition of `std::isspace`; `Spec.PlainText` | both loops by induction over the characters, UTF-8 units of a character are one ASCII byte or bytes from 128 on |
| C96 | `Model.CreateEffects.createNamed`: the constructor for names of bytes | decoding is the inverse of encoding (Lean's own UTF-8 lemmas); case analysis of the constructor as for C91 |
| C97 | as C83, with an arbitrary bucket before the session | the reader looks only at documents and at chunks inside the shape (congruence of the reader), which the session wrote; shards and levels it did not write keep their object (C32 exact) |
| C98 | `Model.GroupMeta`, `Model.Stream` | the standard as a predicate on JSON values (`Spec.Ngff`); equivalence with a predicate on the settings from the exact documents of C39 |
| C99 | `Model.Settings`, `Model.Stream` | noninterference: the committed configuration does not contain them |
| C100 | `Model.Stream`, `Spec.Crash` | the history of the sinks when append returns; complete groups by C35, the others have no event |
| C101 | `Model.StorePath`, `Spec.Locations` | `parent_path` and POSIX resolution taken apart at the last slash; on S3 the names of C63, component by component |
| C102 | `Model.WorkDir` | Each event carries the working directory of its moment; confinement (C49, C65) turns absolute roots into absolute paths of all events; the violation is computed by the kernel |
| C103 | `Model.PyObject`, `Spec.Active` | Programs as lists of statements that go on after exceptions, over `Model.Exceptions`; induction over the program |
| C104 | `Model.Endpoint`, `Spec.Endpoint` | Prefix test against the scheme of a URL; induction over the connection tests |
| C105 | `Model.CallerMemory`, `Model.PyMemory`: create, append and the binding on addresses; unreadable cells are undefined behaviour | Refinement of validation, copying and append; induction over strings, dimensions and calls |
| C106 | `Model.Lifetime`: `Model.Reporting` with destroy, a constructor that throws, joining and freeing | invariant over all schedules (a thread that has left is idle, leaves the queue empty), decreasing measure |
| C107 | `Model.MakeDirs`: the jobs of `make_dirs_` system call by system call, the batches of names | invariant over all schedules (whatever is new is an ancestor of, or made by the job of, a listed directory), decreasing measure; names of a batch equally deep and different |

## Defects of the code established by the counterexample theorems

Each is a theorem named `..._violated` (see the manifest): chunks lost with append shards of several chunks (C04, C07, C08), missing
shard index and array document at a chunk boundary inside a shard (C08, C53), split frames (C13 - C15), endless create (C17), byte-wise
averaging (C20), chunk and shard sizes near 2^32 (C23), NULL dereference (C24), unreported failures (C29, C30, C55, C56, C59), last V3 shards never uploaded (C32), lost
connections (C33), shortened objects (C51), V3 close order under a crash (C34, C35), ignored compressor setting (C37), scale factors
(C40), 32-bit offsets (C45), strided numpy arrays (C46), 2^32 frames (C48), `file://` stores not cleared (C49) or refused (C101), store paths with a slash at the end refused or, on S3, uploaded where no reader looks (C101), chunks written elsewhere after a change of the working directory if the store path is relative (C102), `is_active` true on a dead stream (C103), unencrypted connections to `HTTPS://` endpoints (C104), empty `0/.zattrs`
(C50), data race on the error message (C58), leaked frame buffers (C61), undeletable streams (C62), frames replaced or compressed twice after a
thrown error (C66), chunks stored uncompressed when compression fails (C66), shards without an index whose pixels are read as an index, also without any report (C66), undefined conversions for `int8` pyramids (C67), documents that stay unwritten until destroy (C70), mismatched numpy arrays
accepted (C74), lost assignments to nested Python settings (C75), S3 objects over 10000 parts (C76), the logger's level (C78), Python keywords ignored (C85) or refused (C84), V3 datasets that
cannot be opened (C81), levels that are listed and do not exist (C82), V3 datasets on S3 with zeros for the last frames (C83), calls that never return when S3 requests fail (C86), termination when a thread cannot be started (C87) or the status of a directory cannot be determined (C88) or a chunk does not fit into memory (C89), an empty `acquire.json` (C90), everything below the store path deleted by a create that then fails (C91, C96), apostrophes in the Python representation (C92), frames of more than 2^32 pixels (C93), pyramids that miss split frames (C94), undefined character classification (C95), datasets on S3 that show parts of an earlier dataset (C97), dimensions that OME-NGFF does not allow (C98), frames that are still in memory when append has returned (C100).
