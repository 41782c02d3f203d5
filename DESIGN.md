# Formal model of ovirt-imageio: design

The source under study is `/repo` (oVirt/ovirt-imageio, python and a little C).
It is read as text only.  `properties.jsonl` lists the properties, `lean/` holds
the Lean 4 model and the proofs, `MANIFEST.json` maps properties to theorems,
`AXIOMS.md` lists the axioms of every theorem, `seeded/LOG.jsonl` records the
mutation experiments made on the model.

## Layout

* `lean/Verif/Base.lean` - bytes, python slices and integers.
* `lean/Verif/Model/*.lean` - the model, function by function.  Every definition
  cites the file and lines it models and states the simplifications.
* `lean/Verif/Lemmas/*.lean` - helper lemmas (not part of the claims).
* `lean/Verif/Spec/*.lean` - small specifications used in theorem statements,
  independent of the model helpers.
* `lean/Verif/Props/*.lean` - the property theorems, each with an `example`
  showing that a concrete case meets the hypotheses, and the counterexamples.
* `tools/manifest.py` writes `MANIFEST.json`; `tools/axioms.py` writes
  `AXIOMS.md`; `tools/mutate.py` runs the mutation experiments.

## Modelling conventions

* Python exceptions are values (`Except`), the branches are kept.
* Python loops become fuel-indexed recursion when termination is not obvious;
  the wrapper gives a fuel that is enough, and a theorem says that the result is
  never "out of fuel" (`Err.stuck`).
* Storage, sockets and peers are parameters: a list of chunks for a byte stream
  (any fragmentation), a list of bounds for short reads and writes, a list of
  faults for system calls.
* Threads are transition systems; a critical section under a lock is one step,
  everything else is interleaved freely.  Theorems hold for every schedule.
* Python integers are `Int`, or `Nat` where the code can only produce
  non-negative values; python slices with negative bounds are modelled.
* A property that the code violates is kept in full in `properties.jsonl`.  The
  violation is a theorem with a concrete witness (`counterexample` in its name),
  and what holds is proved under a hypothesis that is stated in the theorem
  (`_partial` in the name when the English claim is not fully covered).

## Trusted base

* Lean's kernel (4.33.0), and Mathlib's and core's definitions used in
  statements (lists, integers, bitwise operations, strings).
* The axioms `propext`, `Classical.choice` and `Quot.sound`; `AXIOMS.md` gives
  them for every theorem.  There are no other axioms, no `sorry`, and no
  `native_decide` or `bv_decide`.
* The faithfulness of the model to the code: read by hand, cited line by line.
* The parts of the environment that are parameters with stated behaviour: the
  system calls used by the file backend (`Model/File.lean`), an NBD server that
  keeps bytes (`Model/NbdBackend.lean`; for C58 and C62 any server on bytes that satisfies
  `Spec.Protocol`), `threading.Condition` and
  `queue.Queue`, `hashlib` (any function of bytes), `json` (a pair of functions;
  hypotheses are stated in the theorems), the engine (any answers), clocks (any
  values).

## What is modelled

| source | modelled | where | not modelled |
|--------|----------|-------|--------------|
| `_internal/measure.py` | all | `Model/Measure` | `repr` |
| `_internal/auth.py` | all: tickets, contexts, authorizer, removal, threads | `Model/Auth`, `Model/Tickets` | logging, `_get_transferred` when sizes are unknown |
| `_internal/ops.py` | all | `Model/Ops` | statistics clock (`Model/Stats`) |
| `_internal/backends/memory.py` | all but the mode checks of extents | `Model/Memory` | |
| `_internal/backends/file.py` | I/O, zero, extents, flush; see C13, C09, C46; opening and block size (C56) | `Model/File`, `Model/FileOpen` | the alignment of the kernel in `Model/File` is the block size; that these agree is C56 |
| `_internal/backends/nbd.py` | all but `open` and `clone` | `Model/NbdBackend`, `Model/NbdWire` | |
| `_internal/backends/http.py` | write, zero, flush, read, extents, read_from, write_to, size | `Model/HttpBackend` | `http.client` parsing |
| `_internal/backends/http.py`, `client/_api.py` `_open_http` | opening, connecting, TLS options, OPTIONS, unix socket, clones, the size fallback, closing; outcomes of connecting and of requests are inputs | `Model/HttpConnect` | the bytes of TLS and of the requests |
| `_internal/backends/http.py` | the cache of `extents` and `size` | `Model/HttpExtents` | |
| `_internal/backends/__init__.py` | `get` | `Model/Auth` | module loading |
| `_internal/http.py` | request, response, router, keep-alive loop, header parsing | `Model/HttpServer`, `Model/HttpParse` | `http.server` parsing of the request line and headers |
| `_internal/http.py` `Response`, `Headers`, `Router.__call__`, `cors.py` | the bytes of responses, for any actions of a handler | `Model/Response` | the reason phrases, version and date are inputs; names are ASCII, strings have no lone surrogates |
| `_internal/handlers/images.py`, `validate.py` | all | `Model/Images`, `Model/Tickets` | |
| `_internal/handlers/checksum.py`, `extents.py`, `tickets.py` | all | `Model/Blkhash`, `Model/Extents`, `Model/Tickets` | |
| `_internal/blkhash.py`, `ioutil.c` `is_zero` | all | `Model/Blkhash` | the rest of `ioutil.c` is in `Model/Ioutil` |
| `_internal/nbd.py` | handshake, commands, replies, extents, URLs | `Model/Nbd`, `Model/NbdHandshake`, `Model/Url` | connecting the socket, socket errors |
| `_internal/nbdutil.py` | all | `Model/Extents`, `Model/NbdCopy` | |
| `_internal/extent.py` | all | `Model/Extents` | |
| `_internal/config.py`, `configloader.py`, `server.py` `load_config` | all | `Model/Config`, `Model/Ini` | decoding of files |
| `_internal/ipv6.py` | all | `Model/Url` | |
| `_internal/ssl.py`, `services.py`, `server.py` `main` and `Server`, the servers of `http.py` and `uhttp.py` | configuration to system calls, order, failures, signals | `Model/Daemon` | the TLS handshake, connection threads, profiling, closing sockets of a failed startup |
| `_internal/qemu_nbd.py`, `sockutil.py` | command, block graph, version, process, waiting for the socket | `Model/QemuNbd` | `open`, signal mask, `json.dumps` (a parameter), qemu-nbd itself |
| `client/_io.py` | all | `Model/ClientIo`, `Model/ClientQueue`, `Model/ClientHandler`, `Model/Upload` | |
| `client/_options.py` | sizes, options, configuration, password | `Model/Options`, `Model/ClientOptions` | argparse, ini syntax |
| `client/_ovirt.py`, `_upload.py`, `_download.py` | transfers and disks | `Model/Engine` | the SDK objects |
| `client/_ui.py`, `_internal/util.py` `humansize` | the bar and its percent; the text of sizes | `Model/Progress` | elapsed time, padding of the line, overflow of floats |
| `admin/_api.py`, `admin/tool.py`, `_internal/profile.py`, `handlers/tickets.py` | the client, the functions of the commands, the handlers of the control API, routing and the parts of `urllib` and `http.client` that parse and check the uri | `Model/Admin` | `argparse`, the text of error messages, `http.client` below the request (any failure is possible), failures of saving a profile |
| `client/_api.py`, `_upload.py` `_prepare` | `upload`, `download`, connections, choice of disk | `Model/Api` | `info`, `measure`, `checksum`, `extents` are in `Model/LocalImage` |
| `examples/sparse-stream` | backup and restore: frames, parsing, stdin and stdout with partial reads and failures | `Model/SparseStream` | argparse; the JSON text of the metadata is a parameter |
| `examples/libvirt-stream` | the loop over the stream and the copy | `Model/LibvirtStream` | libvirt (a stream of data and holes with any failures), progress bar |
| `go/imageio/http/http.go`, `go/ovirt-img/nbd/nbd.go`, `go/ovirt-img/map.go` | `Size`, `ReadAt`, `get` over the model of the server; `Extents`, `ExtentsResult`; `writeExtents` | `Model/GoClient` | connecting, `ReadAt` of the NBD backend, parallel calls, command line, `qemuimg` |
| `_internal/stats.py`, its use in `ops.py` and `http.py` | `Clock`, nested measuring, the names used by the server | `Model/Stats` | rounding of floats, the format of numbers, `NullClock` |
| `client/_app.py`, `client/_tool.py` | the signal handler, the check of the workers, the exit status | `Model/Tool` | command line, log |
| `client/_api.py` `ImageioClient` | size, read, write, zero, read_from, write_to, flush, the end of the with statement | `Model/ImageioClient` | finding the transfer url; extents (C20, C49), checksum (C10) |
| `client/_io.py` `Handler` with an HTTP source | the workers of a download: range requests to the server, `write_to`, zeroing, the flush at the end, interleaved writes to the local `qemu-nbd` | `Model/Download` | the served image does not change during the download; `qcow2` itself: a new image shows its backing file |
| `_internal/qemu_img.py`; `client/_api.py` `info`, `measure`, `checksum`, `extents` | the commands of qemu-img, the member of a tar file, the source over NBD, checksum and extents | `Model/LocalImage` | `tarfile`, the JSON text, qemu-img and qemu-nbd themselves are parameters; all extents are requested before the first block of a checksum is read |
| `handlers/images.py`, `auth.py`, `backends/__init__.py`, `http.py` together | the tickets and threads of `Model/Auth` with the handlers of `Model/Images` and one disk for each url; every step of every thread interleaves | `Model/System` | an operation reads and changes its disk at its end; contexts of one url share the state of the backend |
| `json.dumps`, `json.loads` of the python library, called from `http.py:529`, `handlers/images.py:157`, `handlers/tickets.py`, `backends/http.py`, `admin/_api.py` | encoder with ASCII escapes and surrogate pairs; recursive descent decoder with the library's white space, numbers, strings, constants; detection of UTF-8 | `Model/Json` | all floats are one value; lone surrogates become U+FFFD; no recursion limit, no limit of digits; UTF-16, UTF-32 and BOM are refused |
| `configparser.RawConfigParser._read` of the python library, called from `configloader.py:86-88` | the line loop: line ends, comments, indentation, headers, options, continuation lines, empty lines, errors | `Model/Ini` | decoding of files; messages of errors |
| `directio.py`, `util.py:124-155` | `Receive`: opening, the run with and without a size, `close`; `UnbufferedStream` | `Model/Directio` | releasing of memory |
| `auth.py`, `handlers/images.py`, `ops.py`, `backends/*` together | threads of the server with the system calls of their operations interleaved: tickets, requests that change images, one backend object for each context | `Model/Live` (on `Model/Auth`, `Model/Concurrent`) | the handlers are in `Model/System`; an operation may find itself canceled at any time; requests that only read take the steps of `Model/Auth` |
| `ops.py` (`Read`), `handlers/images.py` (`get`), with `auth.py` and `backends/*` | downloads in the server of `Model/Live`: the system calls of `ops.Read` one by one, each with the storage as it is then | `Model/LiveRead` | the call `readinto` of a backend is one step (an NBD read is one request; a file one `read`) |
| `client/_options.py` (`UUID`), `client/_ovirt.py` (`find_host`) | `uuid.UUID(s)` and `str` of it, with `int(s, 16)` of `Model/SparseStream`; the decisions and searches of `find_host` | `Model/Ids` | ASCII text; the SDK is a parameter |
| `client/_ui.py` (`TextFormat`, `JsonFormat`) | the text of a drawing: percent, sizes and rates, time, phase, padding and end of line; the JSON object | `Model/ProgressText` | no value of the elapsed time in JSON |
| `server.py` `show_config`, `main` with `--show-config`, `configure_logger`; `configloader.py` `to_dict`; `config.py` defaults | the dictionary, the text of `json.dumps(indent=4)`, exit status, the parser given to `logging.config` | `Model/ShowConfig` | the floats and their texts, `logging.config.fileConfig` |
| `container/app/entrypoint.py`; `server.py` `_add_ticket`, `_read_ticket`; `util.py` `tmp_dir` | the ticket and its file, the temporary directory, qemu-nbd and the daemon inside, the exit status | `Model/Container` | parsing of the command line, the Containerfile, the text that is printed |
| `go/ovirt-img/main.go`, `map.go`, `backend.go`, `qemuimg/qemuimg.go`, `nbd/nbd.go` `Connect`, `ConnectFile`, `ReadAt` | the command `map`: flags, choice of the backend, the programs that are run, what is printed, exit status; `ReadAt` | `Model/GoMap` | `url.Parse`, `json.Unmarshal`, libnbd and the profile are arbitrary; closing the backend |
| `_internal/backends/__init__.py` `get`, `supports`, `Context`; `util.py` `open`; `open` and `clone` of the three backends | the flags given to `os.open`, the choice of the backend, the CA file, the size of the buffer, what is open after success and failure | `Model/OpenBackend` | what the constructors of the NBD and http clients leave open when they fail; the limit of connections |
| `_internal/auth.py` `remove_context`, `cancel`, `Authorizer.remove`; `http.py` `Context.close`; when closing fails | contexts by connection, whether closing raises, what stays open and what stays in the ticket | `Model/Closing` | each function is one step; that a backend that failed to close does not fail again is an assumption, explained at `Ctx` |
| the `__exit__` methods and context managers of all the modules | which error is raised, given the error of the body and of closing; the nested statements of `upload` and `download` | `Model/WithStatement` | what the objects do when they are released is in the models of the classes |
| `_internal/ioutil.c` `blkzeroout`, `blksszget`, `fallocate`, the constants; `backends/file.py` `_fallocate` | all | `Model/Ioutil` | the kernel is a function from system calls to answers; x86-64 |
| the expressions `config.section.option` in all the modules, `server.py` `load_config` | the list of the options with the type needed | `Model/ConfigReads` | collected by hand from the code |
| `handlers/profile.py` | `_start_profiling`, `_stop_profiling`, with saving that can fail | `Model/Profiler` | `yappi` as a state with the samples; parsing the request is in `Model/Admin` |
| `uhttp.py` `Server` | `create_socket`, `server_bind`, `shutdown`, `_remove_socket`, for any number of processes | `Model/UnixServers` | the file system as a function of paths; permissions as booleans; one server per process |
| `_internal/backends/memory.py` | `Backend` with shared buffers, any position, modes and `closed`; `_copy` | `Model/MemoryFull` | buffers are a function of numbers; buffers of callers are memory views (fixed length) |
| `_internal/qemu_nbd.py` `Server` | `start`, `stop`, `send_signal`, `wait` in any order, with the chosen `cache` and `aio` | `Model/QemuLife` | processes are numbers; how and when they end is arbitrary; the command line is in `Model/QemuNbd` |
| `_internal/validate.py` | `allowed_range`, `available_range`, as used by `handlers/images.py` | `Model/RangeErrors` | the text of the message |
| `handlers/checksum.py`, `blkhash.py` | `Algorithms.get`, the lookup of the digest function | `Model/Algorithms` | attributes of `hashlib` that are no constructors |
| `go/ovirt-img/nbd/nbd.go`, `map.go` | `ConnectFile`, `Connect`, `Close`, `mapURL`: the handles and the servers | `Model/GoHandles` | finalizers of Go |
| `go/imageio/http/http.go` | `Size`, `Extents`, `getExtents`: what is kept, and the objects shared with results | `Model/GoExtents` | items with missing fields, null |

Not modelled at all: packaging, the scripts of the build, `demos/`, `examples/imageio-client` (it only passes its arguments to the
client API).

## Properties: model and proof

| id | model | how it is proved |
|----|-------|------------------|
| C01, C02 | `measure.py` range list | invariant (sorted, disjoint, with gaps) and set semantics of the merge; the list is the canonical and shortest one |
| C39 | ticket bookkeeping of running and completed operations | invariant over histories |
| C03 | `Authorizer.authorize`, `Ticket.may` | decision logic, iff; no use without authorization over all executions |
| C04, C05, C06, C47, C52 | transition system of tickets, operations, removers, contexts | inductive invariant over all interleavings; event log |
| C47 (inside the operation) | the chunk loops of ops.py write, zero and read, with a cancel flag that may be set at any chunk, over any lawful backend | induction over the loops (`Props/OpsCancel`): at most one more chunk, no success, and the reported count is exactly the prefix that reached the image |
| C07 | ticket clock fields | decision logic and histories |
| C08, C09, C10, C14 | `ops.Write` on an abstract backend; memory, file, nbd and http backends are lawful | refinement to a byte map |
| C11, C12 | `ops.Read`, GET handler with python slices | refinement; counterexample for open ended ranges past the end |
| C13 | `ops.Zero`, zero methods of the backends | refinement for all capability sets |
| C15 | sequential server on histories of requests | induction over histories |
| C16, C17 | `Range.parse`, `ContentRange.parse` | parser = grammar, round trip, rejection |
| C18, C19 | `Request.read/readinto`, router, any handler program | invariant; counterexamples for unread bodies |
| C20, C21, C35 | `nbdutil.extents/merged`, backends, JSON | tiling, uniqueness, flag preservation, round trip |
| C22, C23, C24, C44 | `blkhash`, checksum operation, `is_zero` | refinement to the plain block hash |
| C25, C26, C27 | `nbd.py` wire format and reply state machine | round trip, reassembly, sessions of any length |
| C54 | `nbd.py` handshake | the client succeeds exactly on the wire format of the protocol (both directions) |
| C28, C29, C30, C34 | client copy, splitting of extents, handlers | transition system, all schedules, refinement of each worker step |
| C31, C32, C33, C51 | client queue and executor | invariants, measure for termination, absence of deadlock |
| C36, C37, C38 | options handler, router, ticket validation | decision logic, iff |
| C40, C41, C42, C43 | size, url, address, config parsing | round trip, characterization |
| C45 | `nbdutil.copy` | transition system |
| C46 | any number of writers on files, block devices and NBD; zeroing of sparse files inside the file, and of other files anywhere, while others make it larger | programs of system calls, all interleavings; commutation of disjoint programs; for zeroing past the end, where the calls depend on the size, programs that own their blocks while others change everything else (rely and guarantee) |
| C48 | `backends.get` | invariant over histories |
| C49 | http backend composed with the images handler | refinement; the pair is again a lawful backend |
| C55 | `_api.py` on the copy of C28 and C29, with layers of a chain | refinement to what a guest reads; arithmetic of the connections |
| C56 | opening of the file backend | decision logic, for any answers of the kernel |
| C57 | options of the command line tool | loops characterized option by option; failure iff |
| C58 | NBD backend, client and the bytes of any server of the protocol | composition of C25-C27 with the contract of the backends: the pair is a lawful backend |
| C59 | contexts of `ssl.py` | decision logic, for any library and client |
| C60 | startup and stop as a list of system calls, any of which may fail | facts about the list, with a small specification of credentials, sockets and file nodes in `Spec/Daemon` |
| C61 | main thread and signals at any moment | invariant over executions, bound on the steps |
| C62 | NBD backend `extents`, client and any server of the protocol | refinement to the extents loop of C20 called directly with an honest server; fuel induction for a server without errors; composition with C35 |
| C63 | command and block graph of `qemu_nbd.Server.start`, `version` | the arguments parsed back as qemu does give the asked options; the graph interpreted by a small semantics of qemu nodes gives the asked region; counterexamples |
| C64 | `wait_for_socket`, `Server.start`, `stop`, `run` | induction over the checks, iff for each end; bound on checks from the clock; case analysis of the process; counterexample |
| C65 | the copy of the client (`Model/ClientIo`) and the connections of its workers in the server (`Model/Upload`, `Model/Concurrent`) | requests of different workers use different blocks (tiles, permutation of the handled requests); isolation of the connections; durability by an invariant of the steps; counterexample |
| C66 | the progress bar of the client, `client/_ui.py`, with IEEE 754 rounding of the division and the product (`Model/Progress`), and `util.humansize`; partial: the float percent can be one less than the exact one; sizes from 1 EiB | rounding is monotone, exact on integers, with relative error 2^-53; invariant over all calls of the bar; the bar follows the executor of C34 |
| C67 | admin client, tool and control API (`Model/Admin`), JSON as a pair of functions (`Spec.Admin.Codec`); for printable ids without `?` and `%` | refinement of each call to a relation on the tickets (`Spec.Admin.Does`) for any network, induction over sessions; decision logic of the tool; the address from C60; query strings against a relation that says what clients may write (`Spec/Query`, also C37) |
| C68 | opening, cloning and closing HTTP backends, with the open sockets of the process (`Model/HttpConnect`); any outcome of connecting and of requests | invariants by induction over executions (no leak: the open sockets are a permutation of those of the backends; TLS of every connected socket); decision tables for the capabilities and the transport, composed with the server's OPTIONS (C36) for the JSON functions of `Spec.Admin.Codec` |
| C69 | `extents()` and `size()` of the HTTP client with its cache, clones, lost requests and a changing image, with the extents handler (`Model/HttpExtents`, `Model/Extents`) | invariant by induction over executions (what the client knows was true of a past state); kept properties; composed with C35 (wire format) and C55 (download) |
| C70 | the response object, the error path of the router, CORS and the actions of a download (`Model/Response`); a separate reader of responses from RFC 7230 (`Spec/Wire`) | the reader is deterministic and monotone; what is sent is a prefix of the stream the handler says, all of it or the connection is closed; induction over the requests of a connection; composed with C11 for downloads; counterexamples |
| C71 | backup to stdout and restore from stdin over the HTTP client (`Model/SparseStream`); the documented format and its effect on an image (`Spec/SparseStream`) | frames of the format are parsed as what they say; induction over extents and over frames: output is a prefix of a stream of the format, restore is the fold of the frames; round trip and chains of incremental backups by composition |
| C72 | `iter_frames` and the loop that writes its frames over the HTTP client (`Model/LibvirtStream`); the bytes of a volume (`Spec/LibvirtStream`) | induction over the stream with a contract for every step (range, effect, durability, reason of failure); partial, see the violations |
| C73 | the Go HTTP and NBD backends and the map command (`Model/GoClient`), with 64 bit arithmetic and panics; `io.ReaderAt`, block status and JSON texts (`Spec/GoClient`) | refinement to the served range; induction over the replies of the NBD server and over the merged pairs; induction over the list for the JSON grammar; partial, see the violations |
| C74 | the clock and programs that are measured (`Model/Stats`); a journal of what happens without a clock (`Spec/Stats`) | induction over programs: the clock agrees with the journal; partial, see the violations |
| C75 | the copy of C28 with signals at any time and the check as a step of its own (`Model/Tool`) | invariants over executions; no deadlock and end of every execution with the bound of C33; with C53 for the commands; partial, see the violations |
| C76 | sequences of calls on the http backend of C49 with a failing network, readers and writers with any plan of short transfers (`Model/ImageioClient`) | `Spec.History` (an image as a function from offsets to bytes) by induction over the calls; partial, see the violations |
| C77 | the copy of C28 with the workers of `Model/Download`, any interleaving, network and storage faults | refinement to the copy without concurrency (`C77_refines`), from it full and incremental downloads, chains of backups by induction, restore with C65 |
| C78 | `Model/LocalImage` on `Model/QemuNbd`, `Model/NbdWire`, `Model/Blkhash`; `Spec/LocalImage`: getopt, names of images, bytes of a tar archive | the commands are parsed back; the place of a member by induction over the archive; checksum from C22 and C62 over the wire, the guest's view from C63; verification of uploads from C55 and C44; collisions by induction over the blocks |
| C79 | `Model/System` on `Model/Auth`, `Model/Images`; `Spec/System`: when a ticket permits a request | invariant by induction over executions (`Good`: a request being handled was presented with a permitted ticket, its cancel flags fit the ticket), each step is one of eight moves; bytes from C08–C13 for each handler, removal from C04, last write by refinement to the histories of C15 |
| C80 | `Model/Json`; `Spec/Json`: the grammar as inductive relations between texts and documents | the decoder is proved sound and complete for the grammar by induction over the fuel and over derivations; the encoder by induction over documents; then the assumptions (`Codec`, `Server.Proper`) of C13, C35, C38, C49, C53, C67, C71, C77 are discharged |
| C81 | `Model/Ini`; `Spec/Ini`: the grammar of lines as inductive relations between texts and sections with options | the reader is proved to accept a text exactly when the grammar gives it a meaning, by induction over the lines with an invariant for the open option; the result is the parser state of `Model/Config`, so that C43 applies |
| C82 | `Model/Directio` over the backends and sources of C01 | the loop of unknown size by induction over its fuel with the invariant of C01 (what was read is stored, the rest is in the stream); instances for files and for streams of pieces; the path through the URL model of C41 |
| C83 | `Model/Live`; `Spec/Live`: the last operation of a byte, blocks apart | invariant by induction over executions: a ghost image `V` without the running operations, every running operation owns its blocks (rely/guarantee of C46) and its remaining program, run on the storage as it is now, ends with what it has to store; starting, ending, and each call preserve it; tickets by the invariants of C04–C07 |
| C84 | `Model/LiveRead`; `Spec/LiveRead`: `Seen`, the bytes of the states in which the operation was running | the steps are steps of C83 (projection, so C83 holds with downloads); what a download has left to do is watched through all the images it may meet: every byte it will write was seen or will be seen, by induction on the program; invariant by induction over executions; bytes that do not change by the ghost image of C83; success: every system call of every program keeps the size of the image (`Keeps`), and a program that meets only big enough images ends without an error |
| C85 | the server of `Model/Live`, with `flushJob` for PATCH flush; durable bytes as in C65 | the programs of operations change what is durable only with a flush, of everything, and do that last (`Syncing`, `FlushLast`); invariant by induction over executions: an operation that returned without an error has made durable what nobody else changes, and calls of operations in other blocks keep it |
| C86 | `validateUuid`; `Spec/Ids`: `Canonical`, `Spelled` with the digits of `Spec/SparseStream` | cleaning keeps the digits of a spelling (removal of substrings that cannot occur); round trip of `%032x`; one canonical text per number |
| C87 | `findHost`; `Spec/Ids`: what is in the engine, and an engine that answers searches (`Honest`) | decision logic |
| C88 | `drawText`, `drawJson` over the drawings of `Model/Progress`; `Spec/Terminal`: a terminal with carriage return and newline | a drawing of full width replaces the whole line; lengths of the numbers; induction over the drawings, with C66 for the end; C80 for JSON |
| C89 | `showMain` on the texts of the files; `Spec/ShowConfig`: a document that shows a configuration | the indented text is in the JSON grammar of C80 with the values of the dictionary; C81 for the values; induction over the dictionary for the parser of the logger; the defaults of `config.py` meet the conditions |
| C90 | `main` in a world where every call can fail; `addTicket` on the text of the file; `Spec/Container`: tickets for reading | composition of C81 (text of the ticket), C36 (installing), C41 (its url), C63 and C64 (qemu-nbd), C60 (the services), C79 (all executions of the server); counterexamples for the false parts |
| C91 | `main` in an arbitrary world; `Spec/GoMap`: `getopt_long`, the arguments that serve a file, the listing of extents | cases over the calls; induction over the flags; composition with C73 (extents and JSON text); contract of `io.ReaderAt` by cases; counterexamples for the false parts |
| C92 | `get` and `clone` in an arbitrary system, with the list of resources that are open at the end; `Spec/OpenBackend`: the flags as `open(2)` documents them, the rights of a ticket | cases over the results of the system; counterexamples for the false parts |
| C93 | tickets with contexts that may fail to close; `Spec/Closing`: released, failing, the number of connections that a ticket reports | induction over the closers, over the contexts, and over the repeated requests; counterexamples for the false parts |
| C94 | nested statements as a list, errors as values; `Spec/WithStatement`: the first error that happened | induction over the nesting; counterexamples for the false parts |
| C95 | the conversions of the arguments as functions on `Int`, system calls as a list; `Spec/Ioutil`: the call with the same numbers, the effect of a mode | cases; arithmetic modulo 2^64 |
| C96 | lookups in the loaded configuration; `Spec/ConfigReads`: types of values, sensible numbers | the values of C81 keep the types of the defaults; the defaults are checked by the kernel |
| C97 | state machine with the samples; `Spec/Profiler`: the calls in a sequence of events, the state a client knows | induction over the events; counterexamples for a failed save |
| C98 | host with a file system, abstract addresses and servers; `Spec/UnixServers`: runs at an address, only one process uses a path | invariants by induction over the events; counterexamples for shared paths |
| C99 | handles over a heap of buffers, python slices; `Spec/MemoryFull`: the effect of pwrite | slices are ranges inside the buffer; pointwise proof; induction over the rounds of `_copy`; counterexamples |
| C100 | object with `proc`, `cache` and `aio` on a host with processes; `Spec/QemuLife`: runs, start only without a process | invariant by induction over the calls; step properties; counterexamples |
| C101 | the checks with the Content-Range of the error; `Spec/RangeErrors`: `bytes */n` | decision logic for all headers; the same decisions as the handlers; a client knows the size after two refusals; counterexamples |
| C102 | `hashlib` as any list of names and any attributes; the digest of an algorithm as a relation | decision logic for all libraries; an accepted request is the request of C44; counterexample |
| C103 | a table of libnbd handles, with the server of each; any sequence of connections and closes | induction over programs: exactly which handles are open; exactly when the map command leaves a server; counterexamples |
| C104 | the slice of pointers and the objects; `json.Unmarshal` uses objects again; the answer of every request | invariant over all sequences of calls when the image does not change; results and sizes are stable; counterexamples |
| C50, C53 | engine polling loops, upload and download commands | induction on the answer list |

## Violations found in the code

Every item is a theorem in `lean/Verif/Props` (name in parentheses).

* A reversed range breaks the progress report (`C01_reversed_range_breaks_report`);
  empty operations stay in the list (`C02_empty_operations_are_stored`).
* With a zero removal timeout, when the ticket is replaced, or after `clear()`, a
  removed ticket can still be in use (`C04_counterexample_*`).
* A backend that is used outside of an operation can be closed meanwhile
  (`C06_counterexample_use_outside_operation`).
* An operation can shorten the extension given by a PATCH
  (`C07_counterexample_operation_undoes_extension`).
* `Range: bytes=N-` after the end of the ticket reads bytes that the ticket does
  not cover (`C12_counterexample_open_range`).
* `bytes=-0` and empty reads are handled wrongly (`C16_counterexample_*`), the
  headers of empty ranges are malformed (`C17_counterexample_*`).
* Request bodies that the handler did not read, chunked bodies and invalid
  `Content-Length` make the next request on the connection garbage
  (`C19_counterexample_*`).
* Extents of an empty NBD export raise `AttributeError` (`C20_counterexample_empty`).
* A server that announces 0 as its minimum block size is accepted, and every request for extents raises `ZeroDivisionError`
  (`nbd.py:1084`, `C20_zero_block`).
* A short read in the middle of an image gives a wrong checksum
  (`C22_counterexample_short_read`) or copies garbage
  (`C28_handler_counterexample_short_read`).
* Incomplete structured replies and chunks outside of the request are accepted by
  the NBD client (`C26_incomplete_accepted`, `C26_outside_misread`).
* More waiting consumers than the bound of the queue deadlock
  (`C32_many_consumers_counterexample`, `C32_executor_counterexample`).
* An invalid `Content-Length` on an unknown path gets no response
  (`C37_counterexample_no_status`).
* Booleans and negative sizes are accepted in tickets (`C38_counterexample_*`).
* The progress of a canceled ticket goes back (`C39_canceled_progress_goes_back`).
* Sizes accept everything that `int()` accepts, and `str()` of a size is wrong from
  1024 TiB (`C40_counterexample_*`).
* Generated NBD URLs can denote another address (`C41_counterexample_*`).
* A `DEFAULT` section changes options of other sections (`C43_counterexample_default`).
* Checksums ignore the size of the ticket and fail for unaligned files
  (`C44_counterexample_*`).
* `nbdutil.copy` can block forever after a failure of the writer
  (`C45_counterexample_deadlock`).
* Concurrent writes that share a block, and concurrent zeroing of sparse files,
  lose data (`C46_counterexample_*`). A whole upload with two workers to a device
  loses data when an extent starts inside a block (`C65_counterexample_shared_block`).
* A ticket id that is added again leaves a backend open
  (`C48_counterexample_readded_ticket`).
* The HTTP client backend: flush without server support, empty writes, size from
  extents, short writes in `write_to` (`C49_counterexample_*`).
* Removing a ticket can remove a new ticket with the same id
  (`C52_counterexample_new_ticket_lost`).
* Failures outside of the copy leave the transfer or the disk in the engine
  (`C53_counterexample_*`).
* The NBD handshake checks neither the prefix of a listed bitmap nor that context
  ids differ (`C54_bitmap_name_counterexample`, `C54_same_id_counterexample`).
* A download opens one connection more than the server allows readers
  (`C55_counterexample_readers`); with a backing file, zeroes of the disk become
  data of the backing file (`C55_counterexample_backing_file`); sparse raw disks on
  block storage would keep old data (`C55_counterexample_sparse`).
* Block devices with 4096 byte sectors get a block size of 512; when no block size
  works the error is an `AttributeError` (`C56_counterexample_*`).
* An empty URL is not a missing option, and an empty password is not asked for
  (`C57_counterexample_empty`).
* Without `enable_tls1_1` the minimum version of TLS is 1.0: the option lowers the
  minimum instead of raising it (`C59_counterexample_old_version`).
* Port 65535 and abstract control sockets are refused (`C60_counterexample_*`).
* A signal that arrives before `start()`, or just before `pause()`, is lost
  (`C61_counterexample_lost`).
* `qemu_nbd`: with an offset or a size, `backing_chain=False` is ignored and other
  formats become raw bytes (`C63_counterexample_*`); the process is left behind when
  the wait for the socket raises (`C64_counterexample_leak`).
* The progress bar shows 28% after 29 of 100 bytes (`C66_counterexample_percent`),
  and does not compute the percent when the size is set after the bytes
  (`C66_counterexample_late_size`); 1 EiB is shown as 1.00 PiB
  (`C66_counterexample_humansize`).
* `del_ticket` of the admin client with an empty id, or an id that starts with a
  question mark, removes all the tickets and reports success
  (`C67_counterexample_delete_all`); the server ignores what follows a question mark
  (`C67_counterexample_query`, `C67_counterexample_lost`) or an encoded newline
  (`C67_counterexample_newline`) in the id of a ticket.  An id with a space
  leaves the client unusable until it is closed (`C67_stuck`).  With
  `control.remove_timeout = 0` an active ticket is reported as removed but stays
  (`C67_counterexample_no_wait`).  `mod-ticket` without `--timeout` is always refused
  (`C67_tool_no_timeout`), a ticket without uuid ends the tool with a traceback
  (`C67_no_uuid`).
- **HTTP client connections.** A connection that is opened again, after the size fallback or after the
  server closed it, reads with the connect timeout (10 s) instead of the read timeout (60 s)
  (`C68_counterexample_timeout`).  If connecting again fails once, the backend stays unusable even if
  the server is back (`C68_counterexample_stuck`).  A closed backend can be cloned
  (`C68_counterexample_clone_closed`).  An OPTIONS answer that is JSON but not an object ends opening
  with `AttributeError` or `TypeError`, while an answer that is not JSON is accepted
  (`C68_counterexample_not_object`).
- **Stale extents of the HTTP client.** The extents the client got once are never asked for again, by
  it or its clones: after a write to a zero extent the client still reports it as zero
  (`C69_counterexample_stale`).  Copying asks only its source;
  `ImageioClient.extents()` after a `write()` gets the old extents.
- **Responses.** Values of header fields are sent without a check for line ends, and the `filename` of
  a ticket is not validated: with line ends in it the client receives other bytes than the image, or
  more fields (`C70_counterexample_filename`).  A download that fails before the first byte is answered
  with 500 and with the content-range and content-disposition of the data that is not sent
  (`C70_counterexample_stale_fields`).  DELETE of a ticket is answered with 204 and a content-length
  field, which RFC 7230 forbids; the value is 0, clients are not affected.
- **Sparse stream.** Restoring to a larger target leaves the old data of the target after the end of
  the image (`C71_counterexample_larger_target`); the size check only refuses smaller targets.  The
  terminator of data frames is consumed inside an `assert`, so with `python -O` every restore of a
  stream with data is broken (the model runs with asserts).  The example stream in the documentation
  of the script has lengths of 17 digits, which the script cannot read.
- **Data corruption in the libvirt example.** `iter_frames` adds `length` to the offset after a hole,
  but `length` is 0 there (`examples/libvirt-stream:112-115`): the data after every hole is written at
  the start of the hole (`C72_counterexample_after_hole`, for all volumes), and old data of the target
  is left in the copied volume (`C72_counterexample_corrupted`).  The copy reports success.
- **End of file in the Go client.** `ReadAt` compares with `>` instead of `>=`
  (`go/imageio/http/http.go:81`): at the end of the image it asks for the range `bytes=size-(size-1)`,
  which every server refuses, and returns an error that is not `io.EOF` (`C73_counterexample_end`);
  the same for an empty buffer (`C73_counterexample_empty`).  A negative offset is the end of the file
  (`C73_counterexample_negative`), `Size` panics for an empty list of extents
  (`C73_counterexample_size`), and `Extents` of the NBD backend never ends if the server sends no
  extents (`C73_counterexample_forever`) and panics for an odd number (`C73_counterexample_odd`).
- **Text of the statistics clock.** `Clock.__repr__` forgets the time of earlier parts while a part is
  running, so that the rate is wrong (`stats.py:108-111`, `C74_counterexample_running`), and divides by
  zero for bytes without time (`stats.py:118`, `C74_counterexample_division`).  A part inside a part
  with the same name raises (`C74_counterexample_nested`).
- **Signals during a download.** `download_disk` finalizes the transfer in a `finally` block; an error there
  replaces `TerminatedBySignal`, so that `ovirt-img` exits with status 1 (`client/_download.py:60-62`,
  `C75_counterexample_hidden`).  A signal that is received after the copy is ignored.
- **Out of bounds calls of `ImageioClient`.** `read_from` is documented to raise if the range is after the
  end of the image, but it does not check, and neither does `zero`; if the ticket is larger than the image, they grow it, and reading the
  new bytes raises because the size is cached (`client/_api.py:356-368`, `C76_counterexample_grow`).  A write of no
  bytes raises (`C76_counterexample_empty`).
- **File names of local images.** A relative file name that begins with a dash is taken for an option of
  qemu-img (`qemu_img.py:24-97`, `C78_counterexample_dash`); one with a colon is taken for a protocol by qemu-img, but
  for a file by the export of `_open_nbd` (`C78_counterexample_colon`).
- **Compressed archives.** `_find_member` uses `tarfile.open`, which decompresses, so that the offset is one in
  the decompressed bytes; qemu-img and qemu-nbd use it in the compressed file and silently read other bytes
  (`client/_api.py:462-465`, `C78_counterexample_compressed`).
- **Removing a ticket that was added again** does not stop uploads that run with the replaced ticket: they change the
  disk after `DELETE` was answered with success (`C79_counterexample_removed`); with `remove_timeout` 0 this
  happens to every running upload (`C79_counterexample_zero_timeout`).
- **Indented options and comments after values** in configuration files are silently part of the value before
  (`configloader.py:86-88`, `C81_counterexample_indented`, `C81_counterexample_inline`).
- **File URLs.** The URL of a local file with `#` or `?` in its name is opened as another file, the path up to that
  character (`backends/file.py:37`, `C41_counterexample_file`).
- **`directio.Receive` and paths.** A path with `?` or `#` opens another file (`directio.py:31-32`,
  `C82_counterexample_path`).
- **`directio.Receive.close()` raises.** The base class has no `close`, so the first `close()` raises AttributeError after
  closing everything (`directio.py:37-47`, `C82_counterexample_close`); the buffer is leaked if closing the file fails
  (`C82_counterexample_leak`).
- **Empty pieces** end an `UnbufferedStream` early, and the rest of the stream is lost without an error
  (`util.py:124-155`, `C82_counterexample_empty`).
- **Uploads to one block, through the whole server.** Two uploads with two tickets to disjoint ranges of one block are both
  answered with success and the bytes of one are lost (`backends/file.py:193-235`, `C83_counterexample_shared_block`);
  with `remove_timeout` 0 the image changes after the removal was answered (`C83_counterexample_zero_timeout`).
- **Torn downloads.** A download and an upload of the same 8 bytes succeed, and the downloaded bytes were not on the disk
  in any state: nothing keeps an image from changing during a download (`ops.py:90-110`, `C84_counterexample_torn`).
- **Downloads from sparse files.** A connection that zeroes after the end of a sparse file can make the file smaller while another
  connection downloads; the download fails although its range was in the file (`backends/file.py:463-465`, `C84_counterexample_cut`).
- **Ids that are not UUIDs.** `ovirt-img` accepts `0x234567-89ab-cdef-0123-456789ab_def` as id of a disk and uses
  `00023456-789a-bcde-f012-3456789abdef` (`client/_options.py:384`, `C86_counterexample_accepted`).
- **A hardware id that is not UTF-8.** Choosing the local host is an optimization, and errors of reading
  `/etc/vdsm/vdsm.id` are logged and ignored, but not a failure to decode it (`client/_ovirt.py:167-177`,
  `C87_counterexample_undecodable`).
- **Rest of an old line.** A progress line longer than the width (a long phase) is not erased by the next shorter
  one: the line is padded to 79 columns, not to the length of the line before (`client/_ui.py:55`,
  `C88_counterexample_stale`).
- **The container opens its image for writing.** The ticket permits only reading, but `qemu_nbd.run` is called without
  `read_only=True`: an image that cannot be written cannot be served, and qemu-nbd may change it (such as the dirty flag of
  qcow2) (`container/app/entrypoint.py:32`, `C90_counterexample_writable`).
- **The socket of the container.** With a colon in the path of the temporary directory (`TMPDIR`), the url of the ticket is
  opened as another socket than that of qemu-nbd, and every request fails (`container/app/entrypoint.py:24-40`,
  `C90_counterexample_tmpdir`).
- **The temporary directory of the container.** When it cannot be removed it is left, and the error replaces the error of the
  daemon (`util.py:115-121`, `C90_counterexample_left`).
- **`ovirt-img map` of a file whose name begins with a dash.** qemu-img and qemu-nbd get the name without `--` before it, and take it
  as an option (`go/ovirt-img/nbd/nbd.go:41-48`, `go/ovirt-img/qemuimg/qemuimg.go:18`, `C91_counterexample_dash`).
- **`ovirt-img map` ignores write errors.** With a full disk the output is not complete, and the program ends with success
  (`go/ovirt-img/map.go:28-30`, `C91_counterexample_full`).
- **`ovirt-img map` of a URL that is no valid path.** When `os.Stat` of the URL fails with another error than `ENOENT`, such as
  `ENAMETOOLONG`, the program ends with a failure (`go/ovirt-img/backend.go:26-37`, `C91_counterexample_stat`).
- **Go NBD backend at the end of the image.** `ReadAt` at the end of the image reads 0 bytes with libnbd, which refuses that: the
  error is not `io.EOF` (`go/ovirt-img/nbd/nbd.go:171-183`, `C91_counterexample_end`).
- **The backend is not closed when the buffer cannot be mapped.** With no memory, or `buffer_size = 0`, each request opens the file or
  connects to the server, fails, and does not close it; it stays open until python collects the object
  (`backends/__init__.py:97-107`, `C92_counterexample_buffer`).
- **A descriptor is never closed when `io.FileIO` fails.** (`util.py:94-95`, `C92_counterexample_descriptor`).
- **The clone of a NBD backend is not sparse.** `clone` does not pass `sparse`, so the workers of a transfer that use a clone allocate
  when zeroing (`backends/nbd.py:77-80`, `C92_counterexample_sparse`).
- **The clone of a file backend cannot be cloned.** `_clone` does not set the name of the file, so the name is the number of the
  descriptor and cloning the clone fails with `TypeError` (`backends/file.py:236-248`, `C92_counterexample_clone_twice`).
- **A ticket reports a connection that ended.** When closing the backend fails at the end of a connection, `remove_context` does not
  remove the context, and nothing will remove it: a client that waits until the ticket has no connections waits forever
  (`auth.py:166-169`, `C93_counterexample_reported`).
- **Cancelling stops at the first context that fails to close.** The contexts of the other idle connections stay open, and the
  answer is 500 (`auth.py:307-308`, `330-331`, `C93_counterexample_cancel`); repeating the request helps (`C93_retry`).
- **The NBD client hides errors.** `log.exeption` is no method: when closing fails after an error, the user sees `AttributeError`
  (`nbd.py:1255`, `C94_counterexample_nbd_client`).
- **Errors of closing replace the error of the body** for the admin client, the progress bar, qemu-nbd, the temporary directory, and
  `closing`: a failed transfer is reported as a failure to stop qemu-nbd (`qemu_nbd.py:277-278`, `util.py:120-121`,
  `C94_counterexample_replaced`, `C94_counterexample_transfer`).
- **The NBD backend of a transfer is not closed.** `_open_nbd` does not close the backend that it opens, qemu-nbd is terminated while
  the client is connected (`client/_api.py:511`, `C94_counterexample_open`).
- **blkzeroout does not check its numbers.** The format `K` reduces modulo 2^64: `blkzeroout(fd, 2**64, 4096)` zeroes the first block
  of the device (`ioutil.c:34`, `C95_counterexample_wrap`).
- **The numbers of the configuration are not checked.** With `buffer_size = -1` the daemon starts, and every request fails
  (`configloader.py:96-104`, `C96_counterexample_numbers`).
- **A profile that cannot be saved spoils the next one.** The statistics are cleared only after saving: the next profile contains both
  runs, and starting with the other clock fails with 500 (`handlers/profile.py:67-70`, `C97_counterexample_mixed`,
  `C97_counterexample_clock`).
- **A second daemon takes the unix socket of the first.** Starting removes whatever is at the path, also the socket of a running
  daemon or an ordinary file; when the first daemon stops it removes the socket of the second (`uhttp.py:73-77`, `91-93`,
  `C98_counterexample_stolen`, `C98_counterexample_file`).
- **The clone of an empty memory backend is not a clone.** `data or bytearray()` makes a new buffer when the buffer is empty, so
  writes to one of them are not seen by the other (`backends/memory.py:42`, `C99_counterexample_clone`).
- **`_copy` of the memory backend writes old bytes.** The result of `readinto` is ignored, so a source that is too short makes
  it write what was in the buffer (`backends/memory.py:215-222`, `C99_counterexample_copy`); with an empty buffer it does not end
  (`C99_counterexample_copy_forever`).
- **A qemu-nbd server that is started twice loses the first process.** `start` does not check `self.proc`, so the first process
  is left running after `stop` (`qemu_nbd.py:176-179`, `C100_counterexample_twice`); and `cache` is chosen only by the first
  `start` (`qemu_nbd.py:92-98`, `C100_counterexample_options`).
- **The size in the answer to a refused range can be wrong.** The ticket is checked first, so a range after the end of the
  ticket is told the size of the ticket also when the image is smaller (`validate.py:65-87`, `C101_counterexample_size`); suffix
  ranges get no size (`handlers/images.py:93-98`, `C101_counterexample_suffix`).
- **Listed algorithms that cannot be used.** `hashlib.algorithms_available` has names that are no attributes of `hashlib`
  (`sm3`), or need a length (`shake_128`); the server lists and accepts them, and answers 500
  (`handlers/checksum.py:18`, `blkhash.py:39-44`, `C102_counterexample_listed`).
- **The Go client can leave qemu-nbd running.** A connection whose size cannot be read is not closed
  (`go/ovirt-img/nbd/nbd.go:56-59`, `84-87`, `C103_counterexample_size`); the map command exits with `log.Fatalf` when the extents
  fail, so the deferred close does not run (`go/ovirt-img/map.go:21-26`, `C103_counterexample_extents`).
- **Extents of the Go client change after they were returned.** `Size` after `Extents` fetches the extents again and decodes
  them into the objects of the earlier result (`go/imageio/http/http.go:45-58`, `156`, `C104_counterexample_size`); an answer that
  was refused for an item of the wrong type is returned by the next call (`go/imageio/http/http.go:62-69`,
  `C104_counterexample_type`).
