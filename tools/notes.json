{
 "C04": "Partial: proved for a non-zero removal timeout (the default is 60 seconds) and a ticket id that is not added again meanwhile; false otherwise.",
 "C06": "Partial: proved for a non-zero removal timeout (the default is 60 seconds). The counterexample is outside of the statement: a backend used without an operation may be closed meanwhile.",
 "C07": "Partial: that a completed operation moves the expiration is proved for tickets that are not canceled. The counterexample is not against the statement, but shows that an operation may shorten the extension given by a PATCH.",
 "C11": "The counterexample is about an empty open range, which is not a valid range.",
 "C12": "Partial: open ranges starting after the ticket size are not refused. Checksum requests ignore the size of the ticket: Imageio.Props.C44_counterexample_ticket_size.",
 "C16": "Partial: the formats are parsed back exactly; the suffix range bytes=-0 and an empty read are handled wrongly.",
 "C17": "Partial: proved for non-empty ranges; the headers of empty ranges are malformed.",
 "C20": "Partial: holds for every non-empty image. For an empty export the NBD backend raises AttributeError (nbdutil.extents yields None), and the file and memory backends report an empty extent. A server that announces 0 as its minimum block size gets no extents (C20_zero_block).",
 "C22": "Partial: for every backend that satisfies the storage laws and does not return short reads inside the image (instances: memory, NBD, files and devices when the kernel reads fully). With a short read the checksum is wrong (C22_counterexample_short_read). The plain file function checksum() is proved for any pattern of short reads.",
 "C25": "Every command of the client (nbd.py 1258-1350) and every request method. The bytes are a spec of the protocol written independently (Spec/Nbd.lean).",
 "C26": "For all legal replies of the protocol, any packets, any bytes after the reply. C26_incomplete_accepted and C26_outside_misread show that the client does not check illegal replies (missing parts, chunks out of the range).",
 "C27": "Sessions of any length (C27_session): every request gets the result of its own answer. Also: unknown chunk types, truncated replies, replies that were not negotiated. Errors of the socket itself are not modelled.",
 "C28": "Partial: proved for storage that reads and writes completely; C28_handler_counterexample_short_read shows that it is false otherwise. For every schedule of the workers and every pattern of failures. The calls of the workers to the storage are atomic and complete, as the code assumes (_io.py 363, 390); C28_handler_* show that the handlers do this for storage that reads and writes completely.",
 "C32": "Partial: proved for at most as many waiting consumers as the bound of the queue. With more consumers the single notify of get() and put() may wake the wrong thread and everything blocks; the same happens in a copy with 33 workers and the queue depth of 32.",
 "C33": "Termination is for fair schedules: every step decreases a measure, and no reachable state of a running copy is stuck (workers at most the queue depth).",
 "C35": "json.dumps and json.loads are parameters with the hypothesis that text is read back as it was written; everything else is modelled.",
 "C36": "For every state of the server and every list of permissions. The capabilities for a ticket are compared with the decision of authorize at the same time.",
 "C37": "Partial: one status for every request, except a request with an invalid Content-Length to an unknown path.",
 "C38": "Partial: exactly the documents of Spec.Tickets.Valid are installed, everything else changes nothing and is refused. Booleans are accepted for integers and negative sizes are accepted (counterexamples), so the documented types are proved for documents without booleans. The part of urlsplit that validates the netloc is a parameter; the JSON parser is that of C80.",
 "C39": "Partial: proved for tickets that are not canceled; false for a canceled ticket that is still listed (Imageio.Props.C39_canceled_progress_goes_back).",
 "C40": "Partial: the accepted strings are characterized exactly (C40_size_iff). Python integers with underscores, signs and spaces are accepted too (C40_counterexample_loose). str() of a size loses the value for 1024 TiB and more.",
 "C41": "Partial: for the export names and paths that the syntax of the URL can express; the counterexamples are names for which the generated URL denotes another address.",
 "C43": "Partial: every option of every section is characterized by C43_values. With a DEFAULT section in a file the options of other sections change (C43_counterexample_default).",
 "C44": "Partial: the checksum covers exactly the image of the backend; the size of the ticket is ignored (C44_counterexample_ticket_size). A file with unaligned size cannot be checksummed (C44_counterexample_unaligned_size).",
 "C45": "Partial: the bytes are proved for every interleaving of the reader and the writer, every queue depth, and every failure. After a failure of the writer the reader may block forever in requests.put (C45_counterexample_deadlock, for every queue depth); this cannot happen for images without zero extents. The calls of the NBD clients are complete when they return, as proved in C25-C27.",
 "C46": "Partial: false for zeroing past the end of a sparse regular file with several writers (C46_counterexample_truncate), and ranges that share a block lose data (C46_counterexample_shared_block). Block devices, NBD and regular files, sparse or not (uploads anywhere; zeroing anywhere on block devices and on files that are not sparse, and inside the file as it was before for sparse files), any number of connections, any interleaving of their system calls, with storage faults and short writes: a request that succeeded stored its bytes whatever the others did, bytes of no request are unchanged, and without faults, canceling and missing data every request succeeds. A request ends as it ends alone (C46_file_result), except zeroing past the end of a file, where the calls depend on the size of the file.",
 "C48": "Partial: closing at the end of the connection is proved when no ticket id is added twice.",
 "C49": "Partial: proved for the client composed with the images handler on every lawful backend, for every failure of the network; the pair is itself a lawful backend. False for empty writes, for the flush of a server without flush support after a failed write, for the size from extents when the ticket is smaller than the image, and for destinations with short writes in write_to (counterexamples). Wire parsing of http.client is not modelled; connecting is C68, and the cache of extents C69.",
 "C50": "The answers of the engine and the clock are arbitrary.",
 "C51": "Close is final, wakes every waiter, and only a closed queue raises.",
 "C52": "The counterexamples are about concurrent removals.",
 "C53": "Partial: a download finalizes the transfer if creating it succeeded as a whole; a transfer that was added but failed to become ready is left in the engine. The copy and the engine are the environment; the copy is C28. The counterexamples are failures outside of the copy, that leave the transfer or the disk in the engine.",
 "C54": "Connecting the socket and lone surrogates in the export name are not modelled. Counterexamples: the name of a listed bitmap is not checked for its prefix; two contexts with the same id overwrite each other.",
 "C55": "Partial: a download opens one connection more than max_readers allows, and a download of the whole chain to an image with a backing file shows backing data in holes (counterexamples). Sparse raw disks on block storage rely on the rule of the engine (Creatable).",
 "C56": "Partial: block devices are never asked, so 512 is used also on 4096 byte devices (counterexample); the error when no block size works is an AttributeError (counterexample).",
 "C57": "The splitting of the command line by argparse and the ini syntax are not modelled. Empty values count as values (counterexample).",
 "C58": "The server is a parameter: any machine on bytes that satisfies Spec.Protocol; a concrete server with broken connections is proved to satisfy it (Sample.protocol, Sample.reliable). Socket errors other than the end of the stream are not modelled.",
 "C59": "Partial: without enable_tls1_1 the minimum is TLS 1.0, not TLS 1.2 (counterexample).",
 "C60": "Partial: port 65535 and abstract control sockets are refused although valid (counterexamples); everything else is proved.",
 "C61": "Partial: a signal before start() sets running, or between the check of running and pause(), is lost (counterexample).",
 "C62": "Composition of the decoder (C27), the extents loop (C20, C21), the JSON API (C35) and the handshake (C26); the server is any machine that satisfies Protocol and Reports, and a sample server satisfies them.",
 "C63": "Partial: with an offset or size, backing_chain=False is ignored and a format other than qcow2 is exported as raw bytes.",
 "C64": "Partial: the process is left running when wait_for_socket raises another error, or when it does not end in time after SIGKILL.",
 "C65": "Partial: for a file backend with more than one worker the extents have to start at multiples of the block size of the storage; otherwise data is lost (counterexample), and zeroing has to stay inside the file as it was before (always true for block devices, and for files that have the size of the image). No condition for one worker, and for NBD with block size 1.",
 "C66": "Partial: an exact integer percent can be shown as one less (29 of 100 bytes shows 28), the percent is not computed when the size is set late, and sizes from 1 EiB are shown in the wrong unit.",
 "C67": "For other ids the claim is false: for an id that is empty or starts with a question mark a removal removes all tickets and reports success; what follows a question mark or an encoded newline in an id is ignored; an id that cannot be sent leaves the client unusable until it is closed; with a zero removal timeout an active ticket is reported as removed but stays.",
 "C68": "The order of system calls inside http.client and ssl is described by the outcomes of connecting and of requests.",
 "C69": "The extents are not those of the current image after a write: the cache is never invalidated (counterexample).",
 "C70": "Partial: for header values without line ends. The file name of a ticket is not checked, so it can inject header fields and data (counterexample); an error after the headers of a download were set is sent with them (counterexample).",
 "C71": "The JSON text of the metadata is a parameter. A larger target keeps its old data after the end of the restored image (counterexample).",
 "C72": "Partial: the bytes are proved for volumes with a hole only at the end. The offset is not moved after a hole, so data after a hole is written at the start of the hole and old data is left in the target.",
 "C73": "Partial: reading at the end of the image, or an empty buffer, fails with an error that is not io.EOF; negative offsets are io.EOF; Size panics for an empty list of extents; Extents never ends for a server that sends no extents and panics for an odd number of values.",
 "C74": "Partial: the text of a running clock shows only the time of the last part and a wrong rate, and it fails with ZeroDivisionError for bytes without time; a part inside a part with the same name raises (this does not happen in the server).",
 "C01": "Partial: proved for tickets that are not canceled; operations ending on a canceled ticket are not recorded (C39).",
 "C02": "Partial: the canonical and shortest list is proved for operations that transferred at least one byte; an operation that transferred nothing is stored as an empty range (C02_empty_operations_are_stored), so the stored list is not the shortest one then. Order and retransmission have no such restriction on the reported value.",
 "C47": "C47_write, C47_zero and C47_read are the operations themselves: a flag set while chunk n is transferred allows at most n+1 chunks, the operation does not succeed, and the reported count is exactly the prefix that reached the image.",
 "C75": "Partial: an error while finalizing hides the signal of a download (exit status 1).",
 "C76": "Partial: if the ticket is larger than the image, read_from and zero after the end of the image do not raise, and the cached size is stale; calls that write nothing raise.",
 "C77": "The dirty extents must say the truth about what changed; the disk does not change during a download.",
 "C78": "Partial: file names that begin with a dash or contain a colon before a slash, and compressed archives, are real exceptions; qemu-img and qemu-nbd are assumed to be honest about the bytes they are told to open.",
 "C79": "Partial: the removal is about ticket objects and a non-zero remove_timeout (a ticket id that was added again, and a zero timeout, are real exceptions), and open ranges past the end of a ticket are an exception for reading. The effects of an operation on its disk are taken at its end; operations inside the storage at the same time are in C83.",
 "C80": "The json library of python is modelled from its python source. Simplified: values of floats are one value, a lone surrogate is U+FFFD, UTF-16, UTF-32 and byte order marks are refused; the recursion limit and the limit of 4300 digits are not modelled.",
 "C81": "RawConfigParser of python 3.12 is modelled from its source, over decoded text: UnicodeDecodeError is not modelled. An option that is indented more than the option before is part of its value, and a comment after a value is part of the value (counterexamples to what a user may expect).",
 "C82": "Partial: a path with ? or # or two slashes at its start opens another file; close() always raises AttributeError the first time, and leaks the buffer if closing the file fails; an empty piece ends an UnbufferedStream early. The loop over the stream has fuel that is shown to suffice.",
 "C83": "Partial: with two operations in one block of a file or block device bytes are lost although both are answered with success (unaligned writes read and write the whole block), and with remove_timeout 0 images change after a successful removal. Files, block devices and NBD; reading is in C84. Zeroing past the end of a sparse regular file is excluded (C46).",
 "C84": "Partial: the last two sentences are false in general: a download fails if another connection makes a sparse file smaller meanwhile, by zeroing after its end (block devices, other files and NBD exports never become smaller, in no execution, and there it is true); a download that overlaps with an upload can succeed with bytes that were not on the disk together in any state (the old bytes of one block, the new ones of another). A failing download closes the connection after the headers of a successful answer were sent (C12); success here is the operation. Files, block devices and NBD servers.",
 "C85": "Files and block devices, and NBD servers that announce flush; operations that run at the same time have no bytes in a common block (C83 shows what happens if they have). fsync and the flush of NBD make all that was written before durable; what else the host makes durable on its own is not modelled.",
 "C86": "Partial: the last part is false: python takes the digits with int(s, 16), so a prefix 0x, a sign, underscores and spaces are accepted in place of digits, and another id is used than the one that was given. Arguments that are not ASCII are not modelled.",
 "C87": "Partial: the last sentence is false for a file that is not UTF-8: UnicodeDecodeError is not an OSError and stops the command. The engine is a parameter that answers the searches of the form used by find_host with what is in it; names with spaces or other special characters are not covered.",
 "C88": "Partial: false of lines longer than the width: the end of a long line stays on the screen when a shorter line is drawn over it. The value of the elapsed time in the JSON output is not modelled, and the terminal is wider than the line.",
 "C89": "The values of floats are their texts: the document grammar (C80) does not keep the value. What logging.config does with the parser is not modelled.",
 "C90": "Partial: false for temporary directories whose path has characters that are special in urls, when the directory cannot be removed, and in the cases of C64; qemu-nbd opens the image for writing.",
 "C91": "Partial: false for files whose name begins with a dash, when stdout cannot be written, for URLs for which os.Stat fails, and for reading at the end of the image. url.Parse, json.Unmarshal and libnbd are arbitrary functions.",
 "C92": "Partial: false when the buffer cannot be mapped or io.FileIO fails after os.open; the clone of a NBD backend drops sparse, and the clone of a file backend cannot be cloned. What the constructors of the NBD and http clients leave open when they fail is not part of this model.",
 "C93": "Partial: false when closing fails: the ticket reports the connection that ended forever, and cancelling stops at the first context that fails. Proved when no close fails, and for requests that are repeated. Each function is one step; interleavings are in C04 to C06 and C48, where closing does not fail.",
 "C94": "Partial: false for the NBD client, where a wrong name raises AttributeError, for the classes that do not catch errors of closing, and for the NBD backend of _open_nbd, which is not released.",
 "C95": "Partial: blkzeroout does not check its numbers and zeroes another range when the offset is negative or at least 2^64.",
 "C96": "Partial: the numbers are not checked, the daemon starts with a negative size of the buffers and fails in the requests.",
 "C97": "Partial: false after saving a profile failed: the statistics are not cleared, the next profile contains also the former run, and the other clock is refused.",
 "C98": "Partial: false for pathname sockets shared by two processes: the second takes the connections of the first, and the first removes the socket of the second when it stops; any file at the path is removed.",
 "C99": "Partial: false for clones of an empty backend, for writing nothing after the end, for negative positions, for reading after the end, and for copying from a source that is too short.",
 "C100": "Partial: false when start is called twice, the first process is then left running, and for the options of a later start, which are those chosen by the first.",
 "C101": "Partial: when the image is smaller than the ticket the first answer tells the size of the ticket, a range inside of it can be refused once more with the right size; suffix ranges are refused without a size; the header is not valid for tickets with negative size.",
 "C102": "Partial: algorithms that are listed but are no attribute of hashlib, or need a length for the digest, are accepted and answered with 500, without reading the image.",
 "C103": "Partial: a connection whose size cannot be read is not closed; the map command does not close the backend when the extents fail, because log.Fatalf does not run deferred calls.",
 "C104": "Partial: json.Unmarshal decodes into the objects of earlier results, so Size changes the extents that were returned before when the image changed; an answer with an item of the wrong type is an error, but its other items are returned by the next call; an image without extents panics."
}