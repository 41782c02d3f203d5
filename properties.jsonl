{"id": "C01", "title": "Reported progress is the size of the union of transferred ranges", "statement": "For a ticket granting a single permission, the 'transferred' value reported by GET /tickets/{id} is exactly the number of distinct image bytes covered by the operations that completed on the ticket and the already-done parts of the operations that are still running: overlapping, repeated and adjacent ranges are counted once, gaps are not counted.", "quantifier": "every sequence of completed operations (any offsets, any lengths, including empty ones, in any order) and every set of ongoing operations with any amount done", "why_tests_cant": "tests enumerate a few orders of a few ranges; the claim is about all finite histories of range insertions and the sorted-list merge must be right for each", "anchors": ["ovirt_imageio/_internal/measure.py: Range, RangeList.add, RangeList.update, RangeList.sum, RangeList._merged", "ovirt_imageio/_internal/auth.py: Ticket._remove_operation, Ticket.transferred"]}
{"id": "C02", "title": "Progress accounting is independent of order and retransmission", "statement": "Two transfers that completed the same operations in a different order report the same progress, and completing an operation whose range was already transferred changes nothing. The stored list of completed ranges always is the unique sorted list of disjoint, non-touching ranges for the covered bytes, so it is as short as possible.", "quantifier": "every permutation of every finite list of operations and every retransmitted sub-range", "why_tests_cant": "the number of permutations is factorial; a representation invariant over unbounded histories needs induction", "anchors": ["ovirt_imageio/_internal/measure.py: RangeList.add, RangeList.update, RangeList._merged"]}
{"id": "C03", "title": "Authorization decision", "statement": "A request on an image is authorized exactly when a ticket with that id is installed, is not canceled, has not expired at the time of the request, and grants the requested permission, where 'write' also grants 'read' and nothing else implies anything. In every other case the request is refused and has no effect on the image or on the ticket.", "quantifier": "every ticket store, ticket, clock value and requested permission", "why_tests_cant": "the decision ranges over all stores, permission lists and times; tests check sample tickets", "anchors": ["ovirt_imageio/_internal/auth.py: Authorizer.authorize, Ticket.may", "ovirt_imageio/_internal/handlers/images.py: Handler.put, get, patch, options", "ovirt_imageio/_internal/handlers/extents.py", "ovirt_imageio/_internal/handlers/checksum.py"]}
{"id": "C04", "title": "A removed ticket is dead", "statement": "When DELETE /tickets/{id} has answered with success, no operation started with the removed ticket is running, none can start later, and no byte of the image is read or written through that ticket after the answer.", "quantifier": "every interleaving of requests, operation steps, cancellations and removals by any number of connections", "why_tests_cant": "the guarantee is about all thread schedules and must hold at every point of the race between starting an operation and canceling", "anchors": ["ovirt_imageio/_internal/auth.py: Ticket.run, _add_operation, _remove_operation, cancel, Authorizer.remove", "ovirt_imageio/_internal/handlers/tickets.py: Handler.delete"]}
{"id": "C05", "title": "A removal that times out keeps the canceled ticket, and can be retried", "statement": "If operations are still running when the removal timeout expires, DELETE answers with a conflict, the ticket stays listed as canceled, no backend resource of a connection is closed while some operation is running, and a later DELETE succeeds as soon as the operations have ended.", "quantifier": "every schedule of operation completion relative to the timeout", "why_tests_cant": "depends on the interleaving of the waiter and the operations; tests sleep and sample one schedule", "anchors": ["ovirt_imageio/_internal/auth.py: Ticket.cancel, Ticket._remove_operation, Authorizer.remove"]}
{"id": "C06", "title": "Removing a ticket releases connection resources exactly when unused", "statement": "When the removal of a ticket succeeds every backend context registered for the ticket has been closed, and no context is closed while an operation of the ticket is running in it.", "quantifier": "every history of connections joining and leaving, operations, and removals", "why_tests_cant": "all histories of connection and operation events", "anchors": ["ovirt_imageio/_internal/auth.py: Ticket.add_context, remove_context, cancel", "ovirt_imageio/_internal/backends/__init__.py: get, Context, Closer"]}
{"id": "C07", "title": "Expiry", "statement": "A ticket is usable up to, and not at or after, its expiration time; every completed operation moves the expiration to (now + timeout); a PATCH of the ticket moves it to (now + new timeout). An expired ticket whose timeout was extended is usable again. Tickets not used for longer than the timeout are refused.", "quantifier": "every sequence of operation completions, extensions and clock readings (clock never goes back)", "why_tests_cant": "histories with arbitrary timing", "anchors": ["ovirt_imageio/_internal/auth.py: Ticket.__init__, touch, extend, Authorizer.authorize", "ovirt_imageio/_internal/handlers/tickets.py: Handler.patch"]}
{"id": "C08", "title": "PUT writes exactly the body at the requested offset", "statement": "A PUT of n bytes at offset o that succeeds makes image bytes [o, o+n) equal to the request body and leaves every other byte of the image unchanged.", "quantifier": "every image content, offset, body length, block size, buffer size, and every way the socket and the storage split reads and writes", "why_tests_cant": "the product of alignments, buffer sizes, short reads and short writes is unbounded", "anchors": ["ovirt_imageio/_internal/ops.py: Write", "ovirt_imageio/_internal/handlers/images.py: Handler.put", "ovirt_imageio/_internal/backends/file.py: write, _write_unaligned", "ovirt_imageio/_internal/backends/memory.py: write", "ovirt_imageio/_internal/backends/nbd.py: write"]}
{"id": "C09", "title": "Unaligned writes preserve the rest of the block", "statement": "Writing data that starts or ends inside a storage block changes only the written bytes: bytes before and after them in the same block keep their value. Writing past the end of a file whose size is not a multiple of the block size pads with zeroes up to the block end and never truncates.", "quantifier": "every file size, offset, data and power-of-two block size", "why_tests_cant": "all combinations of position inside block, length, and end of file", "anchors": ["ovirt_imageio/_internal/backends/file.py: _write_unaligned, write, _aligned"]}
{"id": "C10", "title": "A truncated upload is reported and leaves a prefix", "statement": "When the client sends fewer bytes than announced, PUT fails with an error that tells how many bytes were missing, and the image holds exactly the received prefix at the offset, with all other bytes unchanged.", "quantifier": "every announced size, every shorter received stream, every split of the stream", "why_tests_cant": "every truncation point and every fragmentation", "anchors": ["ovirt_imageio/_internal/ops.py: Write._write_chunk, Write._run", "ovirt_imageio/_internal/errors.py: PartialContent", "ovirt_imageio/_internal/handlers/images.py: Handler.put"]}
{"id": "C11", "title": "GET returns exactly the requested bytes", "statement": "A GET for a valid range answers with exactly the bytes of the image in that range, in order, and the content-length and content-range headers describe that range.", "quantifier": "every image content, range, block size and buffer size, every short read of the storage", "why_tests_cant": "unbounded product of alignments and short reads", "anchors": ["ovirt_imageio/_internal/ops.py: Read", "ovirt_imageio/_internal/handlers/images.py: Handler.get", "ovirt_imageio/_internal/validate.py: available_range", "ovirt_imageio/_internal/http.py: Range.parse"]}
{"id": "C12", "title": "No request touches bytes beyond the ticket size", "statement": "No read, write, zero or checksum request authorized by a ticket of size s can read or modify bytes at or after s, and requests asking for more are refused before any effect.", "quantifier": "every ticket size, image size, and request range (including open ended ranges)", "why_tests_cant": "the bound must hold for all header values, also for those no test author thought of", "anchors": ["ovirt_imageio/_internal/validate.py: allowed_range, available_range", "ovirt_imageio/_internal/handlers/images.py: put, get, _zero", "ovirt_imageio/_internal/ops.py: Read"]}
{"id": "C13", "title": "PATCH zero zeroes exactly the requested range", "statement": "A successful zero request of n bytes at offset o makes bytes [o, o+n) read as zero and leaves all other bytes unchanged, whatever zeroing methods the storage supports, in sparse and in preallocated mode.", "quantifier": "every image, range, storage capability combination, and every step size", "why_tests_cant": "capability fallbacks and step boundaries multiply", "anchors": ["ovirt_imageio/_internal/ops.py: Zero", "ovirt_imageio/_internal/backends/file.py: BlockBackend._zero, FileBackend._zero, _zero_sparse, _write_zeros, _fallocate, zero", "ovirt_imageio/_internal/backends/memory.py: zero", "ovirt_imageio/_internal/backends/nbd.py: zero", "ovirt_imageio/_internal/handlers/images.py: Handler._zero"]}
{"id": "C14", "title": "Flush requested means flushed before success", "statement": "When a PUT, a PATCH zero with flush requested, or a PATCH flush is answered with success, a flush of the storage happened after the last byte of that request was written. A request that fails never reports flushed data.", "quantifier": "every request, body and failure point", "why_tests_cant": "crash points between write and flush cannot be enumerated by tests", "anchors": ["ovirt_imageio/_internal/ops.py: Write._run, Zero._run, Flush", "ovirt_imageio/_internal/handlers/images.py: put, _zero, _flush"]}
{"id": "C15", "title": "What was uploaded is what is downloaded", "statement": "After any sequence of successful PUT and zero requests, GET of any valid range returns, for every byte, the value given by the last request that covered the byte, or the original content if there was none.", "quantifier": "every history of writes and zeroes of any ranges and every read range", "why_tests_cant": "unbounded histories of overlapping requests; needs refinement to an abstract byte map", "anchors": ["ovirt_imageio/_internal/ops.py: Read, Write, Zero", "ovirt_imageio/_internal/handlers/images.py"]}
{"id": "C16", "title": "Range header round trip", "statement": "Every range a client can format ('bytes=a-b', 'bytes=a-', 'bytes=-n') is parsed back by the server to the same half open range, and every other header value is refused.", "quantifier": "all natural numbers and all header strings", "why_tests_cant": "infinite domain of strings and numbers", "anchors": ["ovirt_imageio/_internal/http.py: Range.parse", "ovirt_imageio/_internal/backends/http.py: Backend._get"]}
{"id": "C17", "title": "Content-Range header round trip", "statement": "Every content range sent by the client backend or by the server is parsed back to the same offset and length; ranges whose last byte precedes the first, or that exceed the announced size, are refused.", "quantifier": "all natural numbers and all header strings", "why_tests_cant": "infinite domain of strings and numbers", "anchors": ["ovirt_imageio/_internal/http.py: ContentRange.parse, ContentRange.__str__", "ovirt_imageio/_internal/backends/http.py: Backend._put_header", "ovirt_imageio/_internal/handlers/images.py: Handler.put"]}
{"id": "C18", "title": "A request body is read exactly once and never past its end", "statement": "Whatever sizes a handler asks for and however the socket delivers the data, the concatenation of all reads of a request body is a prefix of the body, reading never consumes bytes of the following request, and reading until the announced length returns the whole body.", "quantifier": "every body, every sequence of read and readinto sizes, every fragmentation of the stream by the socket", "why_tests_cant": "unbounded interleavings of read sizes and short socket reads", "anchors": ["ovirt_imageio/_internal/http.py: Request.read, Request.readinto, Request.length"]}
{"id": "C19", "title": "Keep-alive connections stay in sync", "statement": "After a request was answered, and the server keeps the connection open, the next request line is read from the first byte after the request body.", "quantifier": "every request, with or without a body, every handler outcome (success or failure at any point)", "why_tests_cant": "must hold for all outcomes, including the ones where the handler never looks at the body", "anchors": ["ovirt_imageio/_internal/http.py: Router.dispatch, Connection, Request"]}
{"id": "C20", "title": "Extents tile the image", "statement": "The extents reported for an image start at offset 0, each one starts where the previous one ended, all have positive length, and the last one ends at the image size, so every byte belongs to exactly one extent.", "quantifier": "every image size and every legal sequence of block status replies (any fragmentation, short and long replies)", "why_tests_cant": "servers may split extents arbitrarily; the number of splits is unbounded", "anchors": ["ovirt_imageio/_internal/nbdutil.py: extents, merged", "ovirt_imageio/_internal/backends/nbd.py: extents", "ovirt_imageio/_internal/backends/memory.py: extents", "ovirt_imageio/_internal/backends/file.py: extents", "ovirt_imageio/_internal/handlers/extents.py"]}
{"id": "C21", "title": "Merging extents loses nothing", "statement": "Merging block status information from the allocation and the dirty bitmap contexts gives every byte the allocation flags of the first and the dirty flag of the second, consecutive merged extents differ in flags, and the result does not depend on how the server split its replies.", "quantifier": "every pair of extent lists covering the image, every split", "why_tests_cant": "infinitely many splits of the same map", "anchors": ["ovirt_imageio/_internal/nbdutil.py: merged, extents", "ovirt_imageio/_internal/nbd.py: Extent"]}
{"id": "C22", "title": "The checksum depends on content only", "statement": "The checksum reported for an image depends only on the image bytes and the requested block size and algorithm: every valid extents description of the same content (zero extents split anyhow, reported as data or as zero) gives the same checksum, and it equals the checksum of the plain file.", "quantifier": "every image, every valid extent list describing it, every block size, every digest function", "why_tests_cant": "infinitely many extent maps of the same image", "anchors": ["ovirt_imageio/_internal/blkhash.py: split, Hash, Block.merge, Block.split, checksum", "ovirt_imageio/_internal/handlers/checksum.py: Operation._run"]}
{"id": "C23", "title": "Block splitting is exact", "statement": "The checksum blocks tile the image: they cover it in order without gap or overlap, each is exactly the block size except possibly the last one which is not longer, and a block is processed as zero only if all extents it came from are zero.", "quantifier": "every list of consecutive extents and every block size", "why_tests_cant": "unbounded lists with every alignment of extent ends to block ends", "anchors": ["ovirt_imageio/_internal/blkhash.py: split, Block.merge, Block.split"]}
{"id": "C24", "title": "Zero detection is exact", "statement": "The fast zero detection answers yes for a buffer exactly when every byte in it is zero.", "quantifier": "every buffer of every length", "why_tests_cant": "256^n buffers; the overlapping comparison trick must be right at every length", "anchors": ["ovirt_imageio/_internal/ioutil.c: is_zero"]}
{"id": "C25", "title": "NBD commands are encoded unambiguously", "statement": "Every NBD request is encoded to 28 bytes from which a peer decodes the same flags, command type, handle, offset and length, and values that do not fit are refused and never truncated.", "quantifier": "all field values", "why_tests_cant": "2^200 values", "anchors": ["ovirt_imageio/_internal/nbd.py: Command.to_bytes, Read, Write, WriteZeroes, BlockStatus"]}
{"id": "C26", "title": "NBD reads reassemble any legal reply", "statement": "Reading a range from an NBD server fills the buffer with the content of the range for every legal structured reply: data and hole chunks in any order, any size, with any interleaving of the stream into packets; and also for simple replies.", "quantifier": "every content, every partition of the range to chunks, every order, every socket fragmentation", "why_tests_cant": "unbounded number of partitions and orders", "anchors": ["ovirt_imageio/_internal/nbd.py: Client.readinto, _recv_reply, _recv_reply_chunk, _recv_data_chunk, _recv_hole_chunk, _receive_into"]}
{"id": "C27", "title": "NBD errors are reported and never lost", "statement": "If the server reports an error for a request the caller gets an exception for that request; if the reply contains recoverable error chunks the stream stays aligned on the next reply; a reply with a wrong handle or a wrong magic is refused.", "quantifier": "every reply stream", "why_tests_cant": "all streams of chunks", "anchors": ["ovirt_imageio/_internal/nbd.py: _recv_reply, _recv_simple_reply, _recv_reply_chunk, _recv_error_chunk"]}
{"id": "C28", "title": "A copy makes the destination equal to the source", "statement": "If a client copy of all extents succeeds, every byte of the destination is equal to the corresponding source byte (skipping zero extents only when the destination is known to be zero there), whatever the number of workers and however their work interleaves.", "quantifier": "every source, extent map, number of workers, buffer size and schedule", "why_tests_cant": "thread schedules and extent maps are unbounded", "anchors": ["ovirt_imageio/client/_io.py: copy, _copy_data, Executor, Worker, Handler"]}
{"id": "C29", "title": "Incremental copy transfers exactly the dirty areas", "statement": "A copy of dirty extents writes every dirty area (data as data, zeroes as zeroes), and modifies nothing else in the destination.", "quantifier": "every dirty extent map, number of workers and schedule", "why_tests_cant": "thread schedules and extent maps are unbounded", "anchors": ["ovirt_imageio/client/_io.py: _copy_dirty, Executor, Handler"]}
{"id": "C30", "title": "Splitting requests is exact", "statement": "A submitted request of any length is executed as consecutive pieces that cover exactly its range, none longer than the maximum, none empty unless the request is empty.", "quantifier": "every start and length", "why_tests_cant": "unbounded lengths", "anchors": ["ovirt_imageio/client/_io.py: Executor._split, Executor.submit"]}
{"id": "C31", "title": "The work queue loses and duplicates nothing", "statement": "Every item put into the work queue is taken out by exactly one consumer, in the order of the puts, the queue never holds more than its bound, and a put never drops an item.", "quantifier": "every interleaving of any number of producers and consumers", "why_tests_cant": "all thread schedules", "anchors": ["ovirt_imageio/client/_io.py: Queue.put, Queue.get, Queue._wait_while"]}
{"id": "C32", "title": "The work queue never strands a waiter", "statement": "With one producer and no more consumers than the queue bound there is no reachable state where a consumer sleeps although items are queued and nobody was woken to take them, or the producer sleeps although there is room and nobody is going to wake it. With more consumers than the bound this is not guaranteed.", "quantifier": "every interleaving of put, get, wait, wakeup and close", "why_tests_cant": "lost wakeups show up only in rare schedules", "anchors": ["ovirt_imageio/client/_io.py: Queue"]}
{"id": "C33", "title": "A failed worker fails the copy", "statement": "If any worker fails on any request, the copy raises an error after all workers have exited; if the copy returns normally, every submitted request was executed exactly once and every worker flushed its destination after its last write.", "quantifier": "every schedule and every failure point", "why_tests_cant": "the combination of failure points and schedules is unbounded", "anchors": ["ovirt_imageio/client/_io.py: Executor.stop, Executor.abort, Worker._run, copy"]}
{"id": "C34", "title": "Progress of a successful copy adds up to the image size", "statement": "For a successful copy the progress increments add up to exactly the image size, counting copied, zeroed and skipped areas.", "quantifier": "every extent map that tiles the image, every option and schedule", "why_tests_cant": "all extent maps and schedules", "anchors": ["ovirt_imageio/client/_io.py: _copy_data, _copy_dirty, Handler.copy, Handler.zero"]}
{"id": "C35", "title": "Extents survive the JSON API", "statement": "The extents the client gets from GET /images/{id}/extents are equal to the extents the server backend produced, for both the zero and the dirty context.", "quantifier": "every extent", "why_tests_cant": "the domain of extents is infinite", "anchors": ["ovirt_imageio/_internal/extent.py", "ovirt_imageio/_internal/handlers/extents.py", "ovirt_imageio/_internal/backends/http.py: extents"]}
{"id": "C36", "title": "OPTIONS advertises exactly what the ticket allows", "statement": "The methods listed by OPTIONS for a ticket are exactly the ones authorized for it; the request '*' advertises all methods.", "quantifier": "every permission list", "why_tests_cant": "all permission lists, in any order with any unknown entries", "anchors": ["ovirt_imageio/_internal/handlers/images.py: Handler.options", "ovirt_imageio/_internal/auth.py: Ticket.may"]}
{"id": "C37", "title": "Requests are routed to the first matching resource", "statement": "A request is handled by the first registered route whose pattern matches the path, with the matched groups as arguments; unknown paths get 404, known paths with unimplemented methods get 405, and exactly one response status is sent for every request.", "quantifier": "every route table, path and handler outcome", "why_tests_cant": "all tables and outcomes", "anchors": ["ovirt_imageio/_internal/http.py: Router.dispatch, Router._find_route"]}
{"id": "C38", "title": "Ticket validation", "statement": "A ticket is installed only if it is a JSON object with all the required fields of the documented types, its optional fields have the documented types, and its URL has a supported scheme; otherwise nothing is changed and the request is refused.", "quantifier": "every JSON value", "why_tests_cant": "all JSON values", "anchors": ["ovirt_imageio/_internal/auth.py: Ticket.__init__, _required, _optional, _validate", "ovirt_imageio/_internal/handlers/tickets.py: Handler.put"]}
{"id": "C39", "title": "Reported progress never goes back", "statement": "As long as a ticket is not removed or replaced, the transferred value reported for it never decreases and never exceeds the ticket size when all operations stay within the ticket.", "quantifier": "every history of operation steps", "why_tests_cant": "all histories", "anchors": ["ovirt_imageio/_internal/auth.py: Ticket.transferred, _remove_operation", "ovirt_imageio/_internal/measure.py"]}
{"id": "C40", "title": "Size strings", "statement": "Sizes given on the command line as number with an optional k, m, g, t suffix are converted to exactly number times the unit, values out of the configured bounds are refused, and all other strings are refused.", "quantifier": "all strings", "why_tests_cant": "infinite domain", "anchors": ["ovirt_imageio/client/_options.py: Size"]}
{"id": "C41", "title": "NBD URLs are parsed to the address they denote", "statement": "The URL generated for a unix or TCP NBD address with an export name is parsed back to the same address and export name.", "quantifier": "all hosts, ports, paths and export names", "why_tests_cant": "infinite domain of strings", "anchors": ["ovirt_imageio/_internal/nbd.py: _parse_url, UnixAddress.url, TCPAddress.url"]}
{"id": "C42", "title": "Host quoting", "statement": "Quoting an address for use in a URL puts IPv6 addresses, and only these, in brackets, and unquoting restores the original address.", "quantifier": "all address strings", "why_tests_cant": "infinite domain of strings", "anchors": ["ovirt_imageio/_internal/ipv6.py: quote_address, unquote_address"]}
{"id": "C43", "title": "Configuration files override in order", "statement": "After loading configuration files in order each option has the value from the last file that sets it, converted to the type of its default, or the default; unknown sections and options are ignored and never change others.", "quantifier": "every schema and list of files", "why_tests_cant": "all lists of files", "anchors": ["ovirt_imageio/_internal/configloader.py: load"]}
{"id": "C44", "title": "The checksum request covers exactly the accessible image", "statement": "The checksum request on a ticket returns the checksum of exactly the image bytes accessible by the ticket, and reports nothing if an error or cancel happens before the end.", "quantifier": "every image, ticket size, block size, extents", "why_tests_cant": "all images and extents", "anchors": ["ovirt_imageio/_internal/handlers/checksum.py: Handler.get, Operation._run"]}
{"id": "C45", "title": "NBD to NBD copy", "statement": "Copying one NBD export to another with the pipelined copy makes every byte of the destination equal to the source, for any queue depth and any order of replies within the protocol.", "quantifier": "every content, size, and interleaving of the reader and the writer", "why_tests_cant": "all interleavings", "anchors": ["ovirt_imageio/_internal/nbdutil.py: copy, _read, _write"]}
{"id": "C46", "title": "Concurrent writers", "statement": "Writes by several connections to disjoint ranges that do not share a storage block all take effect, in any interleaving of their storage operations. (When ranges share a block, the read-modify-write of one writer may undo the other.)", "quantifier": "all interleavings of two or more writers", "why_tests_cant": "all interleavings of storage operations", "anchors": ["ovirt_imageio/_internal/backends/file.py: write, _write_unaligned, max_writers"]}
{"id": "C47", "title": "A canceled operation stops after the current step with an exact account", "statement": "When an operation is canceled while running, it performs at most the current storage step, the reported done count is exactly the length of the prefix that was transferred, and no success is reported for it.", "quantifier": "every cancellation point", "why_tests_cant": "every point of every run", "anchors": ["ovirt_imageio/_internal/ops.py: Operation.cancel, Read._run, Write._run, Zero._run", "ovirt_imageio/_internal/auth.py: Ticket.run"]}
{"id": "C48", "title": "One backend per connection and ticket", "statement": "Requests on the same connection with the same ticket use the same backend, opened once, writable exactly if the ticket allows writing; different connections never share a backend; and the backend is closed when the connection ends.", "quantifier": "every history of requests on any number of connections", "why_tests_cant": "all histories", "anchors": ["ovirt_imageio/_internal/backends/__init__.py: get, Closer", "ovirt_imageio/_internal/http.py: Connection.close, Context"]}
{"id": "C49", "title": "The HTTP client backend is a faithful remote disk", "statement": "Reading, writing and zeroing through the HTTP client backend against the imageio server has the same effect as doing the operation directly on the served image, also when zeroing is emulated by writing zeroes.", "quantifier": "every image, position, length and server feature set", "why_tests_cant": "all sizes and server feature combinations", "anchors": ["ovirt_imageio/_internal/backends/http.py: readinto, write, zero, read_from, write_to, _emulate_zero", "ovirt_imageio/_internal/handlers/images.py"]}
{"id": "C50", "title": "Engine transfers are reported finished only when they succeeded", "statement": "Waiting for a transfer to be created returns only when the transfer is in the transferring phase; finalizing returns only when the engine reported success (or an OK disk after the transfer was removed); every failing or unexpected phase raises an error.", "quantifier": "every sequence of phases the engine reports", "why_tests_cant": "all sequences of engine answers", "anchors": ["ovirt_imageio/client/_ovirt.py: create_transfer, finalize_transfer, _wait_for_disk"]}
{"id": "C51", "title": "Closing the queue releases everyone", "statement": "After the work queue is closed every waiting and every later put and get fails with the closed error, and no item is delivered.", "quantifier": "every schedule around the close", "why_tests_cant": "all schedules", "anchors": ["ovirt_imageio/client/_io.py: Queue.close, Queue._wait_while"]}
{"id": "C52", "title": "Removing a ticket is idempotent", "statement": "Removing a ticket that does not exist succeeds without effect, and removing a ticket twice one after the other leaves the same state as removing it once; other tickets are never affected.", "quantifier": "every ticket store", "why_tests_cant": "all stores and histories", "anchors": ["ovirt_imageio/_internal/auth.py: Authorizer.remove", "ovirt_imageio/_internal/handlers/tickets.py: Handler.delete"]}
{"id": "C53", "title": "An upload is finalized only when the whole image was copied", "statement": "The upload command finalizes the transfer only after the copy succeeded, and cancels it exactly once if the copy failed; it never does both. It reports success only after the engine reported that the transfer finished. A download finalizes every transfer that it created.", "quantifier": "every sequence of engine answers, and every point of failure", "why_tests_cant": "all combinations of failures of the engine, the network and the storage", "anchors": ["ovirt_imageio/client/_upload.py: upload_disk", "ovirt_imageio/client/_download.py: download_disk", "ovirt_imageio/client/_ovirt.py: cancel_transfer, finalize_transfer"]}
{"id": "C54", "title": "NBD handshake agrees with the server", "statement": "The client connects exactly when the bytes of the server are a fixed newstyle handshake of the NBD protocol, however they are split into packets; then it has consumed exactly the handshake, has sent exactly the options the protocol asks for, and its export size, flags, block sizes, structured replies, meta contexts and dirty bitmap are those of the server. Otherwise the connection fails after NBD_OPT_ABORT was sent, and it never loops.", "quantifier": "every byte stream, every fragmentation, every export name, with and without dirty bitmaps", "why_tests_cant": "The tests run against real qemu-nbd or a few hand written servers; they cannot cover all streams of a server and all splits", "anchors": ["ovirt_imageio/_internal/nbd.py"]}
{"id": "C55", "title": "Uploads and downloads keep what the guest sees", "statement": "An upload makes the disk show exactly what a guest reads from the image, with or without the backing chain, and skips zeroes only when the new disk is known to be zero; a download (full, one layer, incremental) makes the new image on its backing file show what the disk shows; the number of connections never exceeds what the server and the local qemu-nbd allow; the proxy is used only when the host cannot be reached.", "quantifier": "every image, chain of layers, set of extents, arguments and schedule of the workers", "why_tests_cant": "tests upload a few images with one kind of storage; they cannot cover all chains, extents and schedules", "anchors": ["ovirt_imageio/client/_api.py: upload, download, _open_http", "ovirt_imageio/client/_upload.py: _prepare"]}
{"id": "C56", "title": "The block size of direct I/O fits the storage", "statement": "Opening a file gives a block size (512 or 4096) whose multiples the storage accepts for direct I/O, for every alignment of the storage up to 4096; other errors of the storage are reported as they are; the file is closed when opening fails; a clone has the same block size.", "quantifier": "every storage (any answers of the kernel)", "why_tests_cant": "tests run on a few file systems and loop devices", "anchors": ["ovirt_imageio/_internal/backends/file.py: open, FileBackend._detect_block_size, BlockBackend.__init__, Backend._clone"]}
{"id": "C57", "title": "Options of ovirt-img: command line, then configuration, then defaults", "statement": "Every option has the value of the command line, else of the chosen section of the configuration file (or its DEFAULT section), else its default; the password comes from the password file, else the configuration, else the user, who is asked only then; parsing fails exactly for invalid values that would be used, a missing section, missing required options or an unreadable password file; certificates are not verified only if the user said so; the number of workers and the buffer size are in their ranges.", "quantifier": "every command line, configuration and password file", "why_tests_cant": "tests check a few combinations of one option at a time", "anchors": ["ovirt_imageio/client/_options.py: Parser.parse, _merge_config, _set_defaults, _check_required_options, _read_password, bool_string, Choices"]}
{"id": "C58", "title": "The NBD backend over the wire is the export of the server", "statement": "For any server that follows the NBD protocol (and may refuse any request, or break the connection at any byte), the backend, its client and the bytes on the socket together behave as the export: a read returns its bytes, a successful write or zero changes exactly the requested bytes in the server, a flush makes them durable, a failed call changes nothing outside its range, and an answer is never taken for the answer of another request. Uploads and downloads of the HTTP server are exact in the export.", "quantifier": "every server of the protocol, every sequence of calls, every split of the answers and every point where the connection breaks", "why_tests_cant": "all servers, fragmentations and failures", "anchors": ["ovirt_imageio/_internal/backends/nbd.py: Backend", "ovirt_imageio/_internal/nbd.py: Client.readinto, Client.write, Client.zero, Client.flush, _recv_reply"]}
{"id": "C59", "title": "Old versions of TLS are refused", "statement": "Every connection to the remote service uses the newest TLS version of both sides, and never a version older than TLS 1.2, or TLS 1.1 if enable_tls1_1 is set.", "quantifier": "every setting, TLS library and client", "why_tests_cant": "all combinations of versions of client, library and policy; the existing test passes only where the system policy refuses the old versions anyway", "anchors": ["ovirt_imageio/_internal/ssl.py: server_context, client_context"]}
{"id": "C60", "title": "Starting and stopping the daemon is safe", "statement": "For every configuration and every failure of the system: no service accepts connections before the whole setup succeeded; with TLS enabled the remote service accepts connections only with TLS and the configured certificate; the process started by root serves only as the configured user and group, and does what needs root before giving it up; the control socket has mode 0660 and belongs to this user before any service runs, and over TCP it is bound only to localhost; tickets are managed only there; ready is reported only when all services run; after stopping no socket is left. A valid configuration starts.", "quantifier": "every configuration, every failing system call, every answer of the system", "why_tests_cant": "all configurations and all points of failure; most tests do not run as root", "anchors": ["ovirt_imageio/_internal/server.py: main, Server", "ovirt_imageio/_internal/services.py: RemoteService, LocalService, ControlService", "ovirt_imageio/_internal/uhttp.py: Server", "ovirt_imageio/_internal/http.py: Server"]}
{"id": "C61", "title": "A termination signal stops the daemon", "statement": "The services run from the start of the daemon until it receives SIGINT or SIGTERM; after a signal, the main thread stops all services and ends.", "quantifier": "every moment at which signals arrive", "why_tests_cant": "the moments at which a signal arrives", "anchors": ["ovirt_imageio/_internal/server.py: main, Server.start, Server.terminate"]}
{"id": "C62", "title": "Extents of the NBD backend over the wire", "statement": "The zero and dirty extents that the NBD backend reports, and that an HTTP client gets from the server, tile the whole export; every extent reported zero is zero in the export of the NBD server, every hole and dirty flag is the flag of the server for each byte. The result does not depend on how the server splits its replies. Asking changes no byte, on the export or on storage, also when the request fails or the connection breaks. Without a dirty bitmap dirty extents are refused and without base:allocation nothing is reported zero. With a server without errors the extents are always reported.", "quantifier": "for every server machine that follows the NBD protocol for block status (any splitting, any refusal, any break of the connection), every session, export and state", "why_tests_cant": "tests run one version of qemu-nbd with small images, whose replies are short and never split; a wrong join of replies or contexts silently corrupts a sparse download or an incremental backup", "anchors": ["ovirt_imageio/_internal/nbd.py: Client.extents, _handle_block_status_chunk", "ovirt_imageio/_internal/nbdutil.py: extents, merged", "ovirt_imageio/_internal/backends/nbd.py: Backend.extents", "ovirt_imageio/_internal/extents.py: Handler.get"]}
{"id": "C63", "title": "qemu-nbd exports what was asked", "statement": "For every image, format, socket, export name, cache, aio, discard and detect-zeroes mode, bitmap, offset and size, the command line of qemu-nbd has exactly the options that were asked for, with the values unchanged, and one image argument; the described block graph exposes exactly the asked part of the file (raw) or the qcow2 image in that part with the asked backing chain; the version printed by qemu-nbd is read correctly and decides whether allocation depths are exported.", "quantifier": "all servers (any strings, any offset and size), all environments, all file sizes, all version outputs", "why_tests_cant": "Tests start a few servers on small images with the installed qemu-nbd version; the option values, ranges, formats and versions are unbounded.", "anchors": ["ovirt_imageio/_internal/qemu_nbd.py: Server.start, version", "ovirt_imageio/client/_api.py: _json_uri"]}
{"id": "C64", "title": "Waiting for qemu-nbd and stopping it", "statement": "The wait for the socket ends exactly at the first check that connects, raises another error, or is past the deadline; it never sleeps past the deadline and checks at most timeout/step + 1 times; the body of run() is entered only after the socket is ready; no qemu-nbd process is left after run(), however the body ends.", "quantifier": "all sequences of connection results and clock readings, all process behaviours", "why_tests_cant": "Tests see only fast servers that start; they cannot enumerate the orders of check results, clock values, ignored signals and failures of the wait.", "anchors": ["ovirt_imageio/_internal/sockutil.py: wait_for_socket, check_connection", "ovirt_imageio/_internal/qemu_nbd.py: Server.start, Server.stop, run"]}
{"id": "C65", "title": "An upload with several workers leaves exactly the source on the server", "statement": "If a copy of the client returned, and all the requests its workers sent - each worker on its own connection, with a flush at the end - succeeded in the server, then every byte of the image in the server has the value the copy computed (the byte of the source in the data extents, zero in the zeroed extents, the old value in the skipped extents and after the end), and all of it is durable; whatever the number of workers, the distribution of the requests on the workers, the interleaving of the system calls of the connections in the server, short writes and short reads, and faults that were handled.", "quantifier": "All images, extents, options, numbers of workers, schedules of the client, interleavings of the system calls in the server, buffer sizes, and bodies arriving in any pieces.", "why_tests_cant": "The client and the server are tested apart, with few workers; lost updates need two system calls of different connections in the same block in a certain order.", "anchors": ["ovirt_imageio/client/_io.py: copy, _copy_data, _copy_dirty, Executor, Worker, Handler", "ovirt_imageio/_internal/ops.py: Write, Zero", "ovirt_imageio/_internal/backends/file.py: write, _write_unaligned, zero, flush", "ovirt_imageio/_internal/backends/nbd.py: write, zero, flush", "ovirt_imageio/_internal/handlers/images.py: put, patch"]}
{"id": "C66", "title": "Progress bar: percent, drawings, and the end of a copy", "statement": "The percent computed with floats is between 0 and 100, never goes back, is 100 exactly when all bytes were transferred (up to 2 PiB), and up to 16 TiB equals the whole number of percents except that an exact integer percent may be shown as one less. For all sequences of calls from any threads the drawn bytes and percents never go back, no drawing repeats the one before, the last line is drawn exactly once when the bar is closed and nothing is drawn after it. For every interleaving of a copy that returned, the bar ends with 100% and the image size; a copy that failed before the end never shows 100% and ends with the error phase. Sizes below 1 EiB are shown in the largest unit, rounded to two digits.", "quantifier": "all sizes and byte counts up to the stated limits; all sequences of method calls; all worker counts and interleavings of the copy", "why_tests_cant": "Floating point rounding differs for single pairs of numbers out of 2^88; tests try a few sizes and one order of updates.", "anchors": ["ovirt_imageio/client/_ui.py: ProgressBar, TextFormat.draw", "ovirt_imageio/_internal/util.py: humansize", "ovirt_imageio/client/_io.py: copy, Handler"]}
{"id": "C67", "title": "Admin client and control API: every call has its effect once, on its own ticket", "statement": "For all tickets, changes, server states and behaviours of the network, a call of the admin client (add, get, modify, remove a ticket, start and stop the profiler; with a zero removal timeout removing an active ticket only cancels it) with an id of printable characters without '?' and '%' either has exactly the effect of the call on the tickets and the caller sees its result (the ticket as stored, success, or the status of the refusal), or it raises and had either its whole effect or none; on a network that does not fail it always has its effect. It never changes another ticket, the connection stays usable, and any sequence of calls does the calls in order. The exit code of the tool is 0 exactly when the command was done. With one configuration the client connects to the address where the daemon listens for the control API.", "quantifier": "all tickets and JSON documents, all ids of plain characters, all server states, all failures of the network in the middle of a request, all sequences of calls, all configurations", "why_tests_cant": "The client and server tests use a few tickets on a local socket; failures between the parts of a request, and ids that are parsed differently on the two sides, are not tried.", "anchors": ["ovirt_imageio/admin/_api.py: Client", "ovirt_imageio/admin/tool.py: main", "ovirt_imageio/_internal/handlers/tickets.py: Handler", "ovirt_imageio/_internal/profile.py: Handler", "ovirt_imageio/_internal/http.py: Connection.handle_one_request", "ovirt_imageio/_internal/auth.py: Authorizer, Ticket.info"]}
{"id": "C68", "title": "The HTTP client verifies the server, uses its capabilities, and loses no connection", "statement": "In every execution, whatever connecting, requests, the size fallback, clones and closing lead to, the open sockets are those open before and one for each connected backend; when all backends are closed none is left. Every connected TCP socket of an https backend, also after reconnecting and of clones, is connected to the server of the url and verifies certificate and host name with the given CA unless the user disabled it. The capabilities, the number of readers and writers, and the unix socket are those the server reports (extents always; zero and flush exactly with write access for this server); the unix socket is used exactly if the server is on this host, reports it and accepts connections there; old servers get the defaults; a refused OPTIONS fails. The proxy is tried exactly if the transfer server cannot be reached.", "quantifier": "all executions (sequences of open, clone, request, size, close), all outcomes of connecting and of requests, all options, all documents the server may send", "why_tests_cant": "The leaks and unverified connections would be on error paths, after reconnects and in clones; the tests use a working server on localhost.", "anchors": ["ovirt_imageio/_internal/backends/http.py: Backend, open, clone, _connect, _create_ssl_context, _create_tcp_connection, _create_unix_connection, _optimize_connection, _clone_connection, _options, _emulate_head, close, HTTPConnection, UnixHTTPConnection", "ovirt_imageio/client/_api.py: _open_http", "ovirt_imageio/_internal/handlers/images.py: options"]}
{"id": "C69", "title": "Extents and size of the HTTP client", "statement": "The extents an HTTP client gets are extents the server reported for some state of the image since the client was opened, and for the current state if it is the first call; a failed call leaves the client as it was, and after a successful call the client and its clones always get the same extents without asking again. While nobody writes to the image, the extents cover it, are zero only where it is zero, and the size is its size, so a download copies the image. Unknown contexts, and dirty extents a server does not support, are refused without a request.", "quantifier": "for all images, all sequences of changes, extents() and size() calls of any clients and clones, and all failures of requests", "why_tests_cant": "Tests ask once from an image that does not change; the cache of clones, retries after lost requests and changes between the calls give unboundedly many orders.", "anchors": ["ovirt_imageio/_internal/backends/http.py: Backend.extents", "ovirt_imageio/_internal/backends/http.py: Backend.size", "ovirt_imageio/_internal/backends/http.py: Backend._get_extents", "ovirt_imageio/_internal/backends/http.py: Backend._emulate_head", "ovirt_imageio/_internal/backends/http.py: Backend.clone", "ovirt_imageio/_internal/handlers/extents.py: Handler.get"]}
{"id": "C70", "title": "The bytes of responses", "statement": "The bytes the server sends for a request are a well formed HTTP/1.1 response with the status, header fields and body of the handler, each field once, or of its error if it failed before it wrote anything; if the handler or the connection fails later the client never takes the truncated bytes for a complete response and the connection is closed. The responses of a connection are received in order, a download delivers exactly the bytes of the image, informational responses are skipped, and the CORS fields are sent exactly when the request has the headers for them, changing nothing else.", "quantifier": "for all sequences of requests of a connection, all actions of handlers on the response in any order and chunking, all exceptions, all points where the socket fails, all bytes that follow", "why_tests_cant": "Tests parse a few responses with http.client; the order of status, headers, errors and writes, failures after any byte and pipelined responses give unboundedly many byte streams.", "anchors": ["ovirt_imageio/_internal/http.py: Response", "ovirt_imageio/_internal/http.py: Headers.__setitem__", "ovirt_imageio/_internal/http.py: Router.__call__", "ovirt_imageio/_internal/http.py: Connection.handle_one_request", "ovirt_imageio/_internal/cors.py: allow", "ovirt_imageio/_internal/handlers/images.py: Handler.get"]}
{"id": "C71", "title": "Sparse stream backup and restore", "statement": "A backup with the sparse-stream example is the documented stream of frames recording exactly the extents asked for (all of them, or the dirty ones) with the bytes of the disk; a backup that fails wrote a prefix of such a stream and changed nothing. Restoring a stream that reports success applied every frame in order and flushed, whatever the chunking of stdin; a truncated stream is never reported as restored, bytes not covered by a frame are never changed, and a target smaller than the image is refused before it is changed. A full backup restored to another disk gives the same bytes, and a full backup followed by incremental ones gives the last image.", "quantifier": "for all disks, extents, buffer sizes, chunkings of stdin, failures of the server, network, stdin or stdout at any point, all streams of the documented format and chains of backups of any length", "why_tests_cant": "The example has no tests at all; truncation at every byte, partial reads and chains of incremental backups give unboundedly many streams.", "anchors": ["examples/sparse-stream: download", "examples/sparse-stream: upload", "examples/sparse-stream: read_frame", "examples/sparse-stream: write_frame", "ovirt_imageio/client/_api.py: ImageioClient", "ovirt_imageio/_internal/backends/http.py: Backend.read_from", "ovirt_imageio/_internal/backends/http.py: Backend.write_to"]}
{"id": "C72", "title": "Copying a libvirt volume", "statement": "Copying a sparse libvirt stream with the libvirt-stream example, when it reports success, leaves the bytes of the volume on the target, with zeroes in the holes and in the rest of a larger target, everything on the storage. A volume larger than the target is refused before the target is changed, bytes after the target are never changed, errors are reported, and the copy succeeds if nothing fails.", "quantifier": "for all volumes, any sequence of data and holes, buffer sizes, sizes of received pieces, failures of libvirt, the network and the server at any point", "why_tests_cant": "The example has no tests; the number of patterns of holes, pieces and buffer boundaries is unbounded, and the common pattern of data only before a hole works.", "anchors": ["examples/libvirt-stream: iter_frames", "examples/libvirt-stream", "ovirt_imageio/client/_api.py: ImageioClient.write", "ovirt_imageio/client/_api.py: ImageioClient.zero"]}
{"id": "C73", "title": "The Go client", "statement": "ReadAt of the Go HTTP backend keeps the contract of io.ReaderAt: the n bytes it returns are the bytes of the image at the offset, fewer bytes than asked for come with an error, io.EOF is returned only if the image ends there, reads at or after the end and negative offsets are reported as io.ReaderAt says, and the image does not change. Size is the end of the image. Extents of the Go NBD backend ends, and its values follow each other from 0 to the size of the image, zero exactly where the server says the image reads as zeroes, without asking for anything outside the image. The map command writes a JSON document with the extents.", "quantifier": "for all offsets, buffers, images, failures of the network and the server, all replies of an NBD server that keep to the protocol (short, long, interrupted), all lists of extents", "why_tests_cant": "The Go tests need a running server and read only a few fixed ranges; replies of NBD servers cannot be enumerated, and the failing offset is the single offset at the end of the image.", "anchors": ["go/imageio/http/http.go: ReadAt", "go/imageio/http/http.go: Size", "go/imageio/http/http.go: get", "go/ovirt-img/nbd/nbd.go: Extents", "go/ovirt-img/nbd/nbd.go: Value", "go/ovirt-img/map.go: writeExtents"]}
{"id": "C74", "title": "Statistics do not change what is measured", "statement": "Measuring code with the statistics clock does not change what it does: no other exceptions and no lost ones. Afterwards the clock has for every name, in the order in which they began, the time of all its parts, the number of parts that ended without an exception and the bytes counted, no name is measured for longer than the time that passed, nothing is running, and the text of the clock shows this. In the server the clock never raises, whatever the handlers do, and the statistics of a connection are complete when it ends.", "quantifier": "for all code with nested, repeated, failing and handled parts, all times, all requests of a connection", "why_tests_cant": "Tests measure a handful of fixed sequences with a fake time; a clock that raises in an error path would hide the error of the request.", "anchors": ["ovirt_imageio/_internal/stats.py: Clock.run", "ovirt_imageio/_internal/stats.py: Clock.start", "ovirt_imageio/_internal/stats.py: Clock._stop", "ovirt_imageio/_internal/stats.py: Clock.__repr__", "ovirt_imageio/_internal/ops.py: Operation.run", "ovirt_imageio/_internal/http.py: Connection.finish", "ovirt_imageio/_internal/http.py: Router.__call__"]}
{"id": "C75", "title": "Signals end a copy cleanly and are reported", "statement": "After SIGINT or SIGTERM the workers of a copy begin nothing new: what completes later was already being executed, at most one request per worker. A copy that succeeds although a signal was received had transferred everything before the signal, so a signal before the copy makes it fail even if there is nothing to copy. The copy never waits forever because of a signal, and reports the first one. An interrupted upload is canceled and never finalized, an interrupted download is finalized, and the exit status is 128 plus the signal number; it is 0 only if everything succeeded.", "quantifier": "for all sources, numbers of workers, queue depths, interleavings of the threads, and all sequences and times of signals", "why_tests_cant": "A test can send a signal at a few moments of one copy; which worker has passed its check when the signal arrives depends on the interleaving.", "anchors": ["ovirt_imageio/client/_app.py: _handle_signal", "ovirt_imageio/client/_app.py: check_terminated", "ovirt_imageio/client/_io.py: Worker._run", "ovirt_imageio/client/_tool.py: main", "ovirt_imageio/client/_upload.py: upload_disk", "ovirt_imageio/client/_download.py: download_disk"]}
{"id": "C76", "title": "Random access to a remote image behaves like a file", "statement": "Any sequence of size, read, write, zero, read_from, write_to and flush calls on an ImageioClient behaves like calls on a local image of the same size: a call that succeeds read or wrote exactly the range it names and nothing else; a call that raises changed nothing outside its range; a call that is out of bounds always raises and changes nothing; what was written is what is read back later if nothing else wrote there; a flush makes everything written before it durable. If nothing fails on the way, all calls in bounds succeed. The error of the body of a with statement is never hidden by an error of closing.", "quantifier": "for all images, sequences of calls, buffer sizes, readers and writers that transfer any number of bytes, and all failures of the connection", "why_tests_cant": "The calls share one connection, one position and one cached size; a test can try a few sequences, and cannot make every request fail at every byte.", "anchors": ["ovirt_imageio/client/_api.py: ImageioClient", "ovirt_imageio/_internal/backends/http.py: Backend"]}
{"id": "C77", "title": "Downloads and chains of incremental backups restore the disk", "statement": "A download that returned left exactly the served image in the local image, and it is durable, whatever the number of workers, the order in which they handled the requests, and the interleaving of their writes. An incremental download on top of the previous backup leaves an image that shows the disk as it is now. So in any sequence of one full backup and any number of incremental backups every image shows the disk as it was at the time of its backup, and uploading it restores that disk. A download that fails changes only bytes in the ranges it was copying. If nothing fails on the way, the download succeeds.", "quantifier": "for all images, extents, numbers of workers, schedules, buffer sizes, responses delivered in any pieces, failures of the network and of the local storage, and all lengths of the chain of backups", "why_tests_cant": "Errors depend on the interleaving of several workers and on where a response is cut, and a lost change in one backup shows only when a later backup of the chain is restored.", "anchors": ["ovirt_imageio/client/_io.py: Handler, Worker, copy", "ovirt_imageio/client/_api.py: download", "ovirt_imageio/_internal/backends/http.py: write_to", "ovirt_imageio/_internal/backends/nbd.py: Backend"]}
{"id": "C78", "title": "Local images: qemu-img commands, members of tar files, checksums verify uploads", "statement": "The commands for qemu-img ask for exactly the requested operation, whatever the file names and formats (a file name must not begin with a dash), and the exit codes of a comparison are told apart. The information, measurement, extents and checksum of a member of a tar file concern exactly the bytes of the last member with that name. The checksum of a local image is the block checksum of what the guest sees, with or without detection of zeroes. After an upload, the checksum that the server computes for the disk equals that of the local image; if they are equal but the disk differs, the digest function has a collision in these very blocks.", "quantifier": "for all file names, formats, archives with any headers and members, image contents, extents, block sizes, digest functions, and uploads with any schedule", "why_tests_cant": "Tests use a few images and names; they cannot show that every member offset is right for every archive or that checksums always agree.", "anchors": ["ovirt_imageio/_internal/qemu_img.py: create, convert, unsafe_rebase, info, measure, compare, bitmap_add", "ovirt_imageio/client/_api.py: info, measure, checksum, extents, _find_member, _json_uri, _open_nbd"]}
{"id": "C79", "title": "The whole server keeps every disk safe, in every execution", "statement": "In every execution of the server with any number of connections, tickets and disks (tickets added, replaced, extended, expiring and removed at any moment; requests valid or not, refused, canceled, failing): a byte of a disk changes only by an upload or PATCH that was run with a ticket object for this disk, that allows writing, is larger than the position, and that had the id of the request, was not expired and not canceled when the request was made. Bytes are sent only by downloads run with a ticket that permitted reading, and are bytes of its disk. Requests that are not run change nothing, send nothing, and are answered with an error. After a successful removal no operation of this ticket object runs. An upload answered with 200 stored exactly its body, a download sends exactly what was asked for, and every byte of every disk is the one of the last successful request that covers it.", "quantifier": "for all executions: lists of steps of any length, of any number of connection threads, tickets, removals, requests and disks; all backends that meet the contract; all contents", "why_tests_cant": "Tests run a few requests, mostly one at a time; no test can cover all interleavings of requests, ticket changes and removals, or show that no other disk changed.", "anchors": ["ovirt_imageio/_internal/handlers/images.py: put, get, patch", "ovirt_imageio/_internal/auth.py: Ticket, Authorizer", "ovirt_imageio/_internal/backends/__init__.py: get", "ovirt_imageio/_internal/http.py: Router.__call__, Connection"]}
{"id": "C80", "title": "JSON texts have one meaning, on both sides", "statement": "json.loads accepts exactly the texts of the JSON grammar (as python extends it: NaN and Infinity), over bytes exactly the UTF-8 of such texts, and a text has one meaning. json.dumps writes a text of the document that is read back as the same document, in printable ASCII on one line, so that the Content-Length in bytes is the length of the text; different documents have different texts; a message cut off by a broken connection is never taken for another message. Therefore: a zero request zeroes the range of its message whatever the order of members, white space and escapes; a ticket is installed only from a text of a valid ticket; extents and sessions of the admin client are what the other side has; the output of the map command of the Go client is read by python as the extents.", "quantifier": "for all texts and bytes of any length, all JSON documents of any depth, all positions where a message is cut, all lists of extents", "why_tests_cant": "Tests parse a few literal documents; no test covers all texts, all escapes, or each position where a message may be cut.", "anchors": ["ovirt_imageio/_internal/http.py: Response.send_json", "ovirt_imageio/_internal/handlers/images.py: patch", "ovirt_imageio/_internal/handlers/tickets.py: put, patch", "ovirt_imageio/_internal/backends/http.py: _patch, _options, _get_extents", "ovirt_imageio/admin/_api.py: add_ticket, mod_ticket, get_ticket", "go/ovirt-img/map.go"]}
{"id": "C81", "title": "Configuration files mean what their text says", "statement": "A text has at most one meaning as sections with options, given by a grammar of lines: headers, options with = or :, continuation lines with a deeper indentation, empty lines in values, comment lines, LF, CR LF or CR. The daemon accepts exactly the texts that have a meaning; a text without one is an error and changes nothing. When loading succeeds, every option has the value that the last text gives it, converted to the type of its default (C43), or its default; the order of the files is the order of their base names in both directories. Comment lines anywhere say nothing, and a file written as [section] and option = value lines is read back as it was written.", "quantifier": "for all texts of any length, all lists of files, all configurations, all positions of comments", "why_tests_cant": "Tests load a few short files; no test covers indentation, mixed line ends, comments inside values, and all malformed texts.", "anchors": ["ovirt_imageio/_internal/configloader.py: load, keyword_mapping", "ovirt_imageio/_internal/server.py: load_config"]}
{"id": "C82", "title": "Receiving a stream for vdsm", "statement": "directio.Receive stores a stream in a file or block device. Without a size it stores the whole stream at the offset, whatever the sizes of the pieces of the stream, the buffer and the alignment of the offset, and changes nothing else; when it flushes, the content is durable after success; if it fails only bytes of the stream may be damaged. With a size it stores exactly that number of bytes, or fails with the number of bytes stored if the stream is shorter. It opens the file of the path, and closing releases the file; closing again does nothing.", "quantifier": "for all streams, piece sizes, buffer sizes, offsets, storage faults, cancellations", "why_tests_cant": "Tests use a few sizes and a single buffer size; storage errors in the middle of a chunk and all alignments cannot be enumerated.", "anchors": ["ovirt_imageio/_internal/directio.py: Receive", "ovirt_imageio/_internal/ops.py: Write._run, Write._write_chunk", "ovirt_imageio/_internal/util.py: UnbufferedStream"]}
{"id": "C83", "title": "Disks of the whole server, call by call", "statement": "While any number of connections, with any tickets for any images, are inside the storage at the same time, their system calls in any order, and tickets are added, extended, expire and are removed meanwhile: in every state every byte of every image that no running operation has in its blocks is what it was at the start, or what the last operation that was asked to change it had to store, if that was answered with success. An image changes only by a call of a running operation that was authorized to write with a big enough ticket of this image that was not removed, and only in the blocks of its request. After a successful removal no operation of the ticket is running and none ends. Operations do not make each other fail and do not wait for each other. No two operations that run at the same time may have a common block of an image.", "quantifier": "for all executions of the server, all interleavings of system calls, all numbers of connections, tickets and images, storage faults, request bodies", "why_tests_cant": "Tests run a few uploads in threads and cannot choose the order of the system calls or expire and remove tickets between any two of them.", "anchors": ["ovirt_imageio/_internal/ops.py: Write._run, Zero._run", "ovirt_imageio/_internal/auth.py: Ticket.run, Authorizer.remove", "ovirt_imageio/_internal/handlers/images.py: put, patch", "ovirt_imageio/_internal/backends/__init__.py: get", "ovirt_imageio/_internal/backends/file.py: Backend", "ovirt_imageio/_internal/backends/nbd.py: Backend"]}
{"id": "C84", "title": "Downloads while images change, call by call", "statement": "While any number of connections download and change images, their system calls in any order, and tickets are added, extended, expire and are removed meanwhile: every byte that a download sends was on the disk, at its place, at some moment while this operation was running; the byte is what is on the disk before and after, if no operation changed its block since before the download started. A download sends no more bytes than the request asked for, and exactly these if it succeeds. It needs a ticket of this image that permits reading or writing and is big enough; after a successful removal no download of the ticket is running and none ends. Downloads change no image and wait for nobody. A download succeeds, or its ticket was canceled, if the storage does not fail, the client takes the bytes, and the range was in the image when it started. A download is the disk as it was in some state.", "quantifier": "for all executions of the server, all interleavings of system calls, all numbers of connections, tickets and images, storage faults, offsets, sizes and buffers", "why_tests_cant": "Tests download images that do not change, and cannot choose the order of the system calls of a download and an upload or remove tickets between any two of them.", "anchors": ["ovirt_imageio/_internal/ops.py: Read._run", "ovirt_imageio/_internal/auth.py: Ticket.run, Authorizer.remove", "ovirt_imageio/_internal/handlers/images.py: get", "ovirt_imageio/_internal/backends/file.py: Backend.readinto", "ovirt_imageio/_internal/backends/nbd.py: Backend.readinto"]}
{"id": "C85", "title": "What was flushed survives a crash while others work", "statement": "While any number of connections change images, their system calls in any order: when an upload or zeroing that flushes (the default of PUT) is answered with success, its bytes are durable, and they stay durable with these values as long as no operation has bytes in their blocks, whatever the other connections do. When any operation that flushes, also PATCH flush, is answered with success, everything in the image is durable that no other connection was changing since the request arrived, also what other requests wrote before without a flush.", "quantifier": "for all executions of the server, all interleavings of system calls, all numbers of connections, tickets and images, storage faults, offsets, sizes and buffers", "why_tests_cant": "Tests cannot crash the host, and cannot choose the order of the system calls of concurrent uploads and flushes.", "anchors": ["ovirt_imageio/_internal/ops.py: Write._run, Zero._run, Flush._run", "ovirt_imageio/_internal/auth.py: Ticket.run", "ovirt_imageio/_internal/handlers/images.py: put, _zero, _flush", "ovirt_imageio/_internal/backends/file.py: Backend.flush", "ovirt_imageio/_internal/backends/nbd.py: Backend.flush"]}
{"id": "C86", "title": "Ids of disks on the command line", "statement": "Every usual spelling of a UUID given to ovirt-img (small or capital letters, with or without dashes, in braces, as URN) is accepted and becomes its canonical text (32 small digits in five groups); the canonical text is kept; two spellings name the same disk exactly if their digits are the same number; nothing but spellings of UUIDs is accepted.", "quantifier": "for all arguments (ASCII)", "why_tests_cant": "Tests use one valid and one invalid id; the ids are 2^128 and every one has many spellings.", "anchors": ["ovirt_imageio/client/_options.py: _validate_uuid, Type.__call__", "ovirt_imageio/client/_upload.py: register", "ovirt_imageio/client/_download.py: register"]}
{"id": "C87", "title": "The local host is used only if it can do the transfer", "statement": "The host that ovirt-img asks the engine to use for a transfer has the hardware id of this machine, is up, and is in the data center of the storage domain; such a host is used if there is one. On a machine that is not an oVirt host the engine is not asked. As choosing a host is an optimization, a problem with reading the hardware id does not stop the command.", "quantifier": "for all contents of the engine, all names of storage domains and data centers without special characters, all results of reading /etc/vdsm/vdsm.id", "why_tests_cant": "Tests need an engine with hosts in several states and data centers; there are no tests of find_host.", "anchors": ["ovirt_imageio/client/_ovirt.py: find_host"]}
{"id": "C88", "title": "What the user sees of the progress", "statement": "On a terminal the progress is one line: after every drawing the line shows the state that was drawn last and nothing of the lines drawn before, the lines above are not changed, and a closed bar leaves exactly one line, with all the bytes reported, and the cursor below it. The lines of transfers of up to 4 PiB with the phases of ovirt-img fit in the width. With --output json there is one line for each drawing, and each line is a JSON object with the bytes, the phase and the size if it is known.", "quantifier": "for all sequences of calls of a bar, all times, all phases without line breaks", "why_tests_cant": "Tests compare the lines of a few calls with a fixed output, without a terminal.", "anchors": ["ovirt_imageio/client/_ui.py: TextFormat.draw, JsonFormat.draw, OutputFormat._write_line, ProgressBar", "ovirt_imageio/_internal/util.py: humansize"]}
{"id": "C89", "title": "The configuration that is shown", "statement": "With --show-config the daemon prints, if it can load its configuration files, one JSON document that has for every section and every option the value that the files give it, or its default, and nothing else, under the name the option has in the files; otherwise it prints nothing and fails. The logger is configured with the texts of the same values under the same names.", "quantifier": "for all configuration files, all configurations with distinct names, and the defaults of the daemon", "why_tests_cant": "Tests show one configuration with one changed value.", "anchors": ["ovirt_imageio/_internal/server.py: main, show_config, load_config, configure_logger", "ovirt_imageio/_internal/configloader.py: to_dict, _obj_to_dict, load", "ovirt_imageio/_internal/config.py: the defaults"]}
{"id": "C90", "title": "The container serves its image for reading only", "statement": "When the container runs the daemon, qemu-nbd accepts connections for the whole image, and the ticket file has exactly one ticket: with the given id or the file name of the image, for its virtual size, for reading only, whose url is the socket of qemu-nbd. The daemon installs exactly this ticket, and clients cannot add another one. Whatever requests the clients send, no byte changes, uploads and patches are answered with an error, and a download gets the whole image or is told that it failed. However the container ends, the temporary directory and qemu-nbd are gone, and the exit status tells a failure.", "quantifier": "for all images, ids, temporary directories, all ways in which the system calls, qemu-nbd and the daemon end, all requests and all their interleavings", "why_tests_cant": "Tests do not run the container.", "anchors": ["container/app/entrypoint.py: main, _generate_ticket, _parse_args", "ovirt_imageio/_internal/server.py: _add_ticket, _read_ticket", "ovirt_imageio/_internal/util.py: tmp_dir", "ovirt_imageio/_internal/qemu_nbd.py: run", "container/conf.d: control.enable = false"]}
{"id": "C91", "title": "ovirt-img map in Go", "statement": "ovirt-img map FILE|URL opens what its argument names: an existing file with qemu-nbd, only for reading, with the format that qemu-img reports; otherwise a URL by its scheme. If it succeeds, it printed a JSON document that lists exactly the extents of the image, which follow each other from start to end with true zero flags; if it fails it printed nothing. Reading from the NBD backend keeps the contract of io.ReaderAt.", "quantifier": "for all arguments, all results of the file system, qemu-img, libnbd and the server, all offsets and buffers", "why_tests_cant": "The tests cover the extents of one image of each backend, and not the command.", "anchors": ["go/ovirt-img/main.go: main", "go/ovirt-img/map.go: mapURL, writeExtents", "go/ovirt-img/backend.go: connect, isFile, connectFile, connectURL", "go/ovirt-img/qemuimg/qemuimg.go: Info", "go/ovirt-img/nbd/nbd.go: Connect, ConnectFile, ReadAt"]}
{"id": "C92", "title": "Opening the backend of a ticket", "statement": "The first request of a connection opens the backend of the ticket with exactly the rights of the ticket: a file is opened for writing only if the ticket allows writing, is never created or made empty, and always uses direct I/O; a NBD client is writable only if the ticket allows writing; a http backend trusts the configured CA. URLs of other schemes are refused and nothing is opened. The buffer has the configured size. Closing the context closes both, even if closing the backend fails. If opening fails, or the ticket was canceled meanwhile, nothing is left open. A clone of a backend has the same rights and the same options.", "quantifier": "for all tickets, all configurations, all results of the system calls and of the connections", "why_tests_cant": "The tests open each backend when everything succeeds; no test lets the mapping of the buffer fail, or clones a clone, or looks at the flags.", "anchors": ["ovirt_imageio/_internal/backends/__init__.py: get, supports, Context", "ovirt_imageio/_internal/backends/file.py: open, _clone", "ovirt_imageio/_internal/backends/nbd.py: open, clone", "ovirt_imageio/_internal/backends/http.py: open", "ovirt_imageio/_internal/util.py: open"]}
{"id": "C93", "title": "Releasing contexts when closing fails", "statement": "When a connection ends, the backends and buffers of all its tickets are released even if closing one of them fails, the other connections are not touched, and the tickets do not report the connection any more. Cancelling a ticket without ongoing operations releases the contexts of all its idle connections. If deleting a ticket fails because a context could not be closed, deleting it again succeeds after finitely many requests, with everything released.", "quantifier": "for all tickets with any number of connections, all connections with any number of tickets, any set of contexts that fail to close, any number of requests and of other connections ending", "why_tests_cant": "No test lets closing a backend fail; which contexts are affected depends on the position of the failing one.", "anchors": ["ovirt_imageio/_internal/http.py: Context.close, Connection.finish", "ovirt_imageio/_internal/auth.py: Ticket.remove_context, Ticket.cancel, Authorizer.remove", "ovirt_imageio/_internal/backends/__init__.py: Context.close"]}
{"id": "C94", "title": "Errors at the end of with statements", "statement": "For nested with statements over the objects of the project: every object is released, the innermost first, whatever fails; the error that the user sees is the first that happened, the one of the body or else the first error of closing; a failure is never silent. Everything that a transfer opens is released at its end.", "quantifier": "for all nestings of any depth, all errors of the body, all combinations of objects that fail to close", "why_tests_cant": "The tests check the end of a with statement for one object with one error; no test lets closing a NBD client or qemu-nbd fail after an error.", "anchors": ["ovirt_imageio/_internal/backends/file.py: __exit__", "ovirt_imageio/_internal/backends/nbd.py: __exit__", "ovirt_imageio/_internal/backends/http.py: __exit__", "ovirt_imageio/_internal/backends/memory.py: __exit__", "ovirt_imageio/_internal/nbd.py: Client.__exit__", "ovirt_imageio/_internal/qemu_nbd.py: run", "ovirt_imageio/_internal/util.py: tmp_dir", "ovirt_imageio/client/_api.py: ImageioClient.__exit__, _open_nbd", "ovirt_imageio/client/_io.py: Executor.__exit__", "ovirt_imageio/client/_ui.py: ProgressBar.__exit__", "ovirt_imageio/admin/_api.py: Client.__exit__"]}
{"id": "C95", "title": "System calls of the C module", "statement": "Each function of the C module makes at most one system call; it asks the kernel for exactly the file descriptor, mode, offset and length of the caller, or fails without a system call; it succeeds exactly if the kernel succeeds, and reports the errno otherwise. For every range inside of a file, the calls of the file backend ask the kernel for the wanted operation on exactly this range, and _fallocate reports an operation as not supported only if the kernel said so.", "quantifier": "for all integers as arguments, all answers of the kernel, all ranges below 2^63", "why_tests_cant": "The tests zero a few ranges of small files and devices; no test passes numbers that do not fit in the C types.", "anchors": ["ovirt_imageio/_internal/ioutil.c: blkzeroout, blksszget, fallocate, module_init", "ovirt_imageio/_internal/backends/file.py: _zero, _zero_sparse, _fallocate"]}
{"id": "C96", "title": "Options that the code reads", "statement": "Whatever the configuration files say: if the daemon starts, every option that the code reads is in the configuration, with a value of the type that the code needs, so no request fails because of a missing option or a value of another type. The numbers are in the ranges that the code can use.", "quantifier": "for all configuration files and vendor files, all options read in the code", "why_tests_cant": "The tests load a few configuration files; they do not check that every expression config.section.option has a default, and no test uses numbers out of range.", "anchors": ["ovirt_imageio/_internal/config.py: Config", "ovirt_imageio/_internal/configloader.py: load", "ovirt_imageio/_internal/server.py: load_config", "ovirt_imageio/_internal/services.py: __init__", "ovirt_imageio/_internal/backends/__init__.py: get", "ovirt_imageio/_internal/auth.py: Ticket.__init__"]}
{"id": "C97", "title": "Profiles", "statement": "A profile written by the daemon contains exactly the functions called between the request that started the profiler and the request that stopped it, measured with the clock of the request. A request to start fails exactly if the profiler runs, a request to stop exactly if it does not, and a refused request changes nothing.", "quantifier": "for all sequences of requests and calls, all clocks, all results of saving", "why_tests_cant": "The tests start and stop the profiler once; no test lets saving the profile fail.", "anchors": ["ovirt_imageio/_internal/handlers/profile.py: Handler.post, _start_profiling, _stop_profiling"]}
{"id": "C98", "title": "Unix servers on one host", "statement": "While a server runs, every connection to its unix address reaches it, whatever other processes do. A server cannot take the abstract address of another. A server that stopped leaves no socket, and the socket of a process that was killed does not prevent the next start.", "quantifier": "for all sequences of starts, stops and kills of any number of processes, all addresses, all files on the host", "why_tests_cant": "The tests run one server at a time in a temporary directory.", "anchors": ["ovirt_imageio/_internal/uhttp.py: Server.create_socket, server_bind, shutdown, _remove_socket"]}
{"id": "C99", "title": "The memory backend", "statement": "Reading gives the bytes at the position and moves it; writing and zeroing put the bytes at the position, fill the gap after the end with zeros and change nothing else; the mode and the closed state are checked before anything changes; clones share the bytes but not the position; copying between backends copies exactly the bytes that were asked for.", "quantifier": "for all contents, positions, buffers, lengths and modes, any number of backends that share buffers", "why_tests_cant": "The tests use a few contents of some bytes and do not clone empty backends, and the copy functions are tested with lengths that the source has.", "anchors": ["ovirt_imageio/_internal/backends/memory.py: Backend.__init__, clone, readinto, write, zero, seek, flush, close, _copy"]}
{"id": "C100", "title": "The life of a qemu-nbd server object", "statement": "For any sequence of calls of start, stop, send_signal and wait, while processes may end at any time: only the process of the object runs, and after stop returned no process runs. Signals are sent only to a process of the object that runs. send_signal and wait raise when there is no process, and wait returns the exit code exactly if the process ended. cache=none is used exactly if direct I/O works.", "quantifier": "for all sequences of calls, all times when processes end, all results of the system calls", "why_tests_cant": "The tests start one server at a time with run(), and every qemu-nbd ends when it is asked to.", "anchors": ["ovirt_imageio/_internal/qemu_nbd.py: Server.start, stop, send_signal, wait"]}
{"id": "C101", "title": "What refused ranges are told", "statement": "A closed range of a download is accepted exactly if it is inside the ticket and the image, an upload or zeroing exactly if it is inside the ticket. Every other range is refused with 416 and a Content-Range that tells the size, and every range inside the size that was told is accepted. The header has the form of RFC 7233.", "quantifier": "for all headers, tickets and image sizes", "why_tests_cant": "The tests check the status of a few ranges, and not what a client can do with the answer.", "anchors": ["ovirt_imageio/_internal/validate.py: allowed_range, available_range", "ovirt_imageio/_internal/handlers/images.py: get, put, _zero"]}
{"id": "C102", "title": "The algorithms of checksums", "statement": "The server lists exactly the algorithms that it accepts, in order, and refuses every other name with 400 before it looks at the image. Every algorithm that is listed can be used: the request gets the checksum with the digest of this algorithm, 32 bytes for the blake2 family.", "quantifier": "for all sets of algorithms, requests and images", "why_tests_cant": "The tests use a few algorithms; the list depends on the version of OpenSSL on the host.", "anchors": ["ovirt_imageio/_internal/handlers/checksum.py: Checksum.get, Algorithms.get, Operation._run", "ovirt_imageio/_internal/blkhash.py: Hash.__init__, checksum"]}
{"id": "C103", "title": "The Go client leaves nothing behind", "statement": "Connecting to an image with the Go client returns a backend exactly if every step succeeded, a connection that fails leaves no handle and no qemu-nbd server, closing a backend closes its handle and its server, and a program that closes its backends leaves nothing. The map command leaves no server when it ends.", "quantifier": "for all programs, with any failures", "why_tests_cant": "The tests do not make libnbd fail, and do not look for processes.", "anchors": ["go/ovirt-img/nbd/nbd.go: ConnectFile, Connect, Close", "go/ovirt-img/map.go: mapURL"]}
{"id": "C104", "title": "The extents that the Go client keeps", "statement": "The size and the extents that the HTTP backend of the Go client returns are the ones that the server sent, in any sequence of calls, also when requests fail; a size that was found is kept; a result that was returned is not changed by later calls; an answer that was refused is not used later.", "quantifier": "for all sequences of calls and answers", "why_tests_cant": "The tests call each method once, with an image that does not change.", "anchors": ["go/imageio/http/http.go: Size, Extents, getExtents", "go/imageio/extent.go: ExtentsWrapper"]}
