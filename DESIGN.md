# Formal model of tatsuya4649/fly in Lean 4

## Approach

The C and Python sources in /repo are read as text and re-expressed, function by
function, as total computable Lean functions.  Every definition cites the file and
lines it models and says where it simplifies.  Three layers per area:

* `Verif/<Area>/Model.lean` — transcription of the code,
* `Verif/<Area>/Spec.lean` (or a `Spec` section in the property file) — a small
  independent specification that does not use the model's helpers,
* `Verif/<Area>/Props.lean` — the property theorems, each with a concrete
  non-vacuity `example` beside it.

Helper lemmas live in `Verif/<Area>/Lemmas.lean`.

Undefined behaviour of the C code (NULL dereference, out-of-bounds access, abort,
endless loop) is a distinct outcome in the model wherever the property depends on
it; it is never silently totalised away.

When the code as it is violates the English property, the model stays faithful; the
violation is proved as a theorem (`…_refuted`, for a whole class of inputs or histories where possible) and the
part that does hold is proved under the suffix `_partial`.

## Trusted base

* Lean 4.33 kernel.
* Axioms: only `propext`, `Classical.choice`, `Quot.sound` (listed per theorem by
  `#print axioms`; see the last section).  No `sorry`, no `native_decide`,
  no `bv_decide`, no own axioms.
* The correspondence between model and C/Python text is by reading (comments cite
  lines).  The C code was not compiled or run.
* C integers: modelled as `Nat`/`Int` with explicit wrap (`% 2^k`) wherever a
  property depends on the width; elsewhere stated as a simplification.
* Bytes are `Nat`; theorems that need it assume `< 256` explicitly.

## What is modelled

Every definition carries a comment with the file and lines it models and the simplifications made there.

| area (`Verif/<area>/`) | source | modelled | left out or simplified |
|---|---|---|---|
| RBTree | src/rbtree.c, rbtree.h | insertion, deletion, rebalancing, search, handles, entry count | tree nodes are algebraic; an upward walk is a zipper; allocation succeeds |
| Buffer | src/buffer.c, buffer.h | chunk list with use/unuse pointers, growth, release, line search, memcpy | lengths unbounded; allocation succeeds |
| H2Frame | src/v2.c (frame header, 31/32-bit fields, SETTINGS, PING, GOAWAY, RST_STREAM, WINDOW_UPDATE codecs) | readers and writers over the chunked buffer | one byte order |
| Hpack | src/v2.c (header compression), header.c | integers, Huffman, static and dynamic table, block decoder, response encoder | 64-bit limits where they cannot be reached |
| H2Stream | src/v2.c (frame dispatch, streams) | one step per complete frame, stream table, pseudo header fields, bodies, window credits | dependency tree, outgoing queue, timers |
| Send | src/v2.c, response.c (senders) | every send loop against an arbitrary schedule of kernel results | TLS errors as one outcome |
| Header | src/header.c, header.h | header list operations, connection decision | allocation succeeds |
| Response | src/response.c, math.c, version.c | statuses, serialization, content length, preparation of static and handler responses | encoder errors, HTTP/2 preparation |
| Request | src/request.c, method.c, version.c, scheme.c, char.h | request line automaton, character classes, names | — |
| ReqHeader | src/request.c:691-931 | header line automaton | block in one chunk, as the buffer's first |
| ReqEvent | src/request.c:950-1638 | receiving, dispatch, body limit, Expect, static or handler choice | TLS naming, timers |
| Route | src/route.c, uri.h | route table, parameters, lookup, Allow field | — |
| Encode | src/encode.c (negotiation) | Accept-Encoding parser and choice | the coders themselves (zlib, brotli) |
| Lang | src/lang.c, charset.c | both parsers with their fields | floats are exact decimals |
| Mime | src/mime.c | Accept parser, weights | parse errors that cannot occur |
| Link | src/bllist.h, queue.h | every assignment on a heap of links | — |
| Pool | src/alloc.c | allocation, block index, free, size classes | tree node memory, pool manager |
| Event | src/event.c, event.h | time arithmetic, timer index, registration, timeouts, expired handlers | epoll, handlers, kqueue |
| Conf | src/conf.c, fly.conf | fgets chunks, line automaton, values, environment | read errors |
| Cli | fly/main.py | options written behind the configuration file | click's own parsing |
| Cache | src/cache.c, ftime.c | entity tags, conditional headers | MD5 and the date functions are parameters |
| Mount | src/mount.c, mount.h, uri.c | file index, comparison, lookup, removal | pools, descriptors |
| Scan | src/mount.c, worker.c | directory walk, limits, update of workers | symbolic links to existing targets, watches |
| Master | src/master.c | worker table, SIGCHLD, shutdown, reload, with the kernel's merging of notifications | pid file, mount watches |
| PyRoute | fly/route.py, cors.py, app.py, _base.py, response.py | route table, CORS, handler wrapper, default headers | argument type errors |
| PyArgs | fly/_parse.py, cookie.py and the string functions of Python they use | Set-Cookie, cookies, query, forms, argument binding, int | float is a parameter; annotations, multipart, JSON |
| PyBridge | src/pyserver.c, request.c, response.c, fly/response.py | conversion of handler results to responses, completion of headers, bytes sent over HTTP/1.1 | reference counts |
| PyReq | src/pyserver.c, header.c | conversion of a request to the dictionary handlers receive | version, scheme, peer and Accept entries, multipart bodies |
| Multipart | src/body.c, header.c, mime.c, pyserver.c | detection of multipart requests, boundary, scan, part headers, list of parts, with reads behind the body as undefined behaviour | allocation failures |
| H2Request | src/v2.c, scheme.c, header.c, body.c | the answer to a complete HTTP/2 request: pseudo-header fields, target, negotiation, body decoding, choice of route or file, with null pointers as undefined behaviour | path parameter errors and failing handlers (both 500) |
| H2Body | src/v2.c, util.c, err.c | preparation of an HTTP/2 response (source, negotiation, lengths) and the send loops of the DATA payload for bodies, encodings, files and default contents, with and without TLS, against an arbitrary connection | chunk borders of encoded bodies, failing encoders, frame scheduling (see Send) |
| Log | src/log.c, err.c, ftime.c, response.c | text of access entries, write loop, time stamps, paths and destinations, messages of fatal errors; processes sharing one log file with record locks, as an interleaving system with kills | the calendar (`strftime` is a parameter), `mktime` in the hour that is repeated |
| Conn | src/connect.c, ssl.c, version.c, with the ends of connections in request.c, response.c, v2.c and event.c | ALPN selection byte by byte; the life of one connection as a state machine over results of system calls and of the TLS library: handlers, event data, objects with their lifetimes, time-outs, shutdown | contents of requests and responses (other areas), HTTP/2 streams, failing allocations |
| Keep | src/response.c, connect.c, request.c | several requests on one connection: the recv results each call of the request handler leaves, the decision after a response, reuse with an empty buffer, rounds of a client | sending of responses (Response, Send), time-outs (Conn) |
| PyForm | fly/_parse.py, fly/_base.py | binding of annotated and un-annotated parameters with the entries taken out of the request, the regular expression for part names (as its greedy and lazy parts are matched), multipart, urlencoded and JSON forms, statuses | what `json.loads`, `float` and the pydantic class answer (parameters of the model), `**kwargs` (see PyArgs) |
| Codec | src/encode.c, response.c, worker.c | the loops around zlib and brotli: input from bodies and files, chunks of output, ends, lengths, and what callers make of the results | the libraries themselves (state machines with the promises of `Spec`; a toy library shows that the promises can be kept), decoders (see H2Request), `lseek` failures, short reads |
| H2Loop | src/v2.c, event.c, err.c | the event loop of an HTTP/2 connection over the frame model H2Stream: handlers and awaited events, receive buffer, queue of outgoing frames, responses under way, GOAWAY, emergencies; schedules are lists of arrivals and turns | contents of frames (H2Stream, H2Request), partial writes (Send, H2Body), time-outs (Conn) |
| H2Prio | src/v2.c | PRIORITY frames: the streams of a connection as a heap of records with the pointers of the dependency lists, freed streams as undefined behaviour | frames on stream 0 or with a wrong length, the limit of streams (H2Stream) |
| Start | src/master.c, util.c, server.c, pyserver.c, conf.h, fly/app.py | the pid file with any number of processes as an interleaving system (creation, write, close, forks, reload, ends at any point); `fly_daemon` over a table of descriptors and results of system calls; `fly_socket_init` over a list of addresses; the replacement for `sendfile(2)` | what `getaddrinfo` finds, signals, the contents of messages, `EINTR` |
| Watch | src/master.c, mount.c, event.c, mount.h | the master's watch over a mount point: directory entries and inodes, the kernel's watches and event queue, registration at the start and later, the handlers of events, notification of the workers; schedules are lists of changes and reads | removal of directories (Mount), links, queue overflow, merging of equal events, limits, removal of the mount point itself |
| Dispatch | src/event.c, event.h | one turn of the event loop: calls of handlers with the signal mask, failures and error levels, flags that keep or remove an event, log entries as events without readiness, expired events, epoll's list of descriptors, open files; handlers are arbitrary functions of the whole state | timers (Event), what handlers do (other areas), kqueue, failing `sigprocmask`, addresses used again (an address given out again counts as a new event) |
| H2Ack | src/v2.c:737-781, 1092-1166, 1953-1974, 2882-2985, 3163-3193, 3240-3278, 3372-3483 | the server's SETTINGS frames from queueing to release: the two lists, the counter, the memory of frames and payloads, the payload as read back on the acknowledgement | neighbour pointers of list elements, partial writes (Send), the address reuse of malloc (a released address is never given out again, so each use of it is noticed) |
| FileType | src/mime.c:5-32, 1133-1154; src/header.c:423-434 | the lookup of a path in the table of media types and the value sent | - |
| Pages | src/worker.c:946-1002; src/context.c:82-93 | opening the pages of the status codes and finding one | descriptors, the encoding in advance (Codec) |
| Signals | src/fsignal.c:7-110; src/master.c:51-61, 236-437, 508-645, 685-707, 955-979; src/worker.c:56-63, 411-558; fly/app.py:56-82 | signal tables, dispatch, signal descriptors, saving and restoring of actions and masks, fly_kill_workers, _watch_dog; the kernel's blocking, coalescing and default actions | kqueue branches, SIGCHLD's own work (Master), mount changes (Scan), stop and continue dropping each other |
| Life | fly/main.py (run), fly/app.py (__init__, run, _run, _run_server, _start_server, _display_explain), src/pyserver.c (_configure, run), src/conf.c 15-38 and 85-111, src/log.c 171-320, src/event.c 149-184, src/master.c 519-575 and 709-744, src/context.c 9-68 | the life of the process of the master over any history of versions of the application file: descriptors it holds, Python's stack, FLY_CONFIG_PATH, pid file, mode, end and status; the two loops that free lists, over a heap | what the routes and handlers of a version are, certificates, other processes on the port, workers, where exactly RecursionError is raised |
| Points | fly/mount.py:15-29, fly/app.py:280-288, 350-358, src/pyserver.c:919-954, 1174-1188, src/mount.c:54-60, 384-520, 1172-1233, 1316-1339, src/worker.c:365-408, 1010-1070 | the calls of mount in the application, os.path.abspath and realpath over a file system with symbolic links, mounting with its limits, numbers, the start-up message; the disappearance of a mount point in master and workers | allocation failures, PATH_MAX for the mount point itself, EACCES on the way to it |
| Trip | src/request.c, route.c, header.c, pyserver.c, response.c, connect.c (the composition of the areas Request, ReqHeader, ReqEvent, Route, PyReq, PyBridge, Header, Response, Send, Keep) | one HTTP/1.1 connection from received pieces to sent bytes, with application functions as arbitrary functions of the dictionary they get; a client that reads responses from the received bytes alone | HEAD, multipart contents, files, responses that need several writes (see C16), TLS |
| PyCors | fly/cors.py:39-230, 249-258; fly/app.py:154-213; fly/route.py:113-138; fly/_base.py:39-117 | application files as lists of definitions under route and CORS decorators, the mark a route decorator leaves on its function, preflight functions, start (with PyRoute) | arguments of other types, except Method members in allow_methods; an application file that catches exceptions |
| H2Trip | src/v2.c, header.c, pyserver.c, response.c (the composition of the areas Hpack, H2Request, Route, PyReq, PyBridge, H2Body, Send, H2Frame, Header) | the requests of one HTTP/2 connection from header blocks and contents to the bytes sent on each stream; a client that reads frames and header blocks from these bytes alone | the frames around received header blocks and contents (H2Stream), the order of streams (H2Loop), forms, files, configured default contents |
| PyText | src/pyserver.c:776-813; src/char.h:67-74 | str objects with their UTF-8 text, the loop over the header list of a response, histories of responses | texts without UTF-8 form |
| WStart | src/worker.c:512-555, 655-807, 890-1002, 1073-1123; src/mount.c:523-546; src/fsignal.c:85-93; src/event.c:14-55; src/response.c:564-719, 1324-1355, 1507-1545 | a worker from the fork to its event loop: mounted files, encoding in advance, pages, descriptors counted one by one, exit statuses; composed with Master | TLS, memory, times outside the range of gmtime |
| Session | fly/response.py:97-107; fly/cookie.py; fly/_parse.py:44-63, 113-126 | set_cookie and the cookie parameter of a handler, over any history, through a client written after RFC 6265 sections 5.2-5.4 (in Spec) | Domain, Path and Secure attributes; non-ASCII texts |
| Date | src/ftime.c:67-80; src/header.c:406-421, 483-489; src/worker.c:269, 920 | fly_imt_fixdate with strftime for its one format in any locale and gmtime_r as any function with the POSIX contract; the Date and Last-Modified fields | years before 1000 and after 9999, a failing time(2) |
| Site | src/response.c:569-581, 604-721, 1043-1047, 1324-1355; src/route.c:453-497; src/header.c:549-573; worker.c (file updates); the composition Trip | one HTTP/1.1 connection for an application with mounted files: the choice between stored form, coding on request and file, the header of a file, the uninitialised part of the send buffer, 405 and Allow, histories of writes, notices and requests for a file | sendfile in several calls (see C16), conditional requests (see Cache), short reads of a file |
| Serve | src/event.c:845-928, 1008-1012; the composition Trip for each connection | a worker with any number of HTTP/1.1 connections and an application with state: interleaved arrivals, handler calls and write calls; clients with lists of requests and clients that send anything | accepting connections (Conn), TLS, time-outs and signals (Event, Dispatch), what follows a failed write |
| BodyLen | src/header.c:158-188, 304-319, 644-665 | the fields of a request as added to its list, the length and the Expect rule read from it (models of Header and ReqEvent) | names with NUL; numbers from 2^63 |
| H2Site | src/response.c:845-870, 1030-1052, 1324-1355; src/v2.c:4940-5025, 5067-5280; src/header.c:423-492, 503-580; the composition H2Trip | one HTTP/2 connection for an application with mounted files: the header lists of files, 304 and 405, the choice of the form, content-length replaced in place, the frames | changed files (C104), directories (C103), 413 for overlong files |
| Nego | src/request.c:1316-1373; src/v2.c:4865-4917; src/encode.c:71-78, 847-893, 1308-1375, 1440-1451; src/response.c:603-617, 1070-1091; the compositions Site and H2Site | connections on which every request says what it accepts: the four parsers run on the fields of the request, the list of codings decides the form of the response, 406 otherwise | file names and languages of contents, which the server does not know |
| Refuse | src/response.c:898-965, 1156-1179; src/request.c:1259-1280; the composition Nego | one HTTP/1.1 connection on which requests are refused: the bytes of 400 and 413, the mark of a refused request line, the end of the connection | 414 (C23), 417 and 100 (C50) |
| Access | src/response.c:384-492, 730-750, 937-939; src/request.c:655-670; src/log.c:322-380; the composition Refuse | one HTTP/1.1 connection and its lines in the access log: the request line kept for the log, the status a response has when it has been written, the entries | HTTP/2 (see C106), the notice log, the moment at which the entry is written to the file |
| H2Refuse | src/v2.c:4838-5033; src/response.c:898-918, 1156-1177 (the models of H2Request, H2Trip, H2Site and Nego; no further definitions) | one HTTP/2 connection on which requests are answered or refused with 400, 406 or 413 | connection errors (H2Stream, H2Loop) |
| H2Wire | src/v2.c:206-221, 300, 783-801, 992-1010, 1632-2130, 2544-2548, 2577-2584; the composition H2Refuse | the loop over the frames of one HTTP/2 connection from their bytes in the buffer: frame header, payload of DATA, HEADERS, SETTINGS, GOAWAY, WINDOW_UPDATE and CONTINUATION, what the frame does to the streams, the response that follows, what it takes of the windows, the end of the stream | responses are sent before the next frame is read (H2Loop); the payloads of PRIORITY and PING |
| H2Access | src/v2.c:2557-2874, 5067-5340; src/response.c:315-362, 384-492; the composition H2Wire | one HTTP/2 connection and its lines in the access log: when a response has been sent to its end, the status it is recorded with, the request line kept, the entries | the notice log, the moment at which the entry is written to the file |
| H2Serve | src/event.c:845-928, 1008-1012; src/v2.c:206-221, 4940-4972; src/pyserver.c:290-711; the composition H2Wire | a worker with any number of HTTP/2 connections and an application that keeps state: the connection a frame belongs to, the call of the function, the state it leaves | HTTP/1 connections beside (Serve), timeouts, signals, the reuse of a connection number |
| H2Any | the composition H2Wire (no further definitions) | an HTTP/2 connection with arbitrary bytes | responses that wait (H2Loop) |
| H2Feed | src/v2.c:524-633, 1632-1679, 1743-1751, 2087-2128 | the receiving loop of an HTTP/2 connection on the bytes of the buffer, with any layout in memory and any cut into reads | what frames do (H2Stream, H2Wire), events (H2Loop), buffers whose memory ends with the last byte |
| H2Buf | src/v2.c:524-733, 1541-1600, 1632-1679, 1743-1751, 2082-2128; src/buffer.c:362-368 | the HTTP/2 connection preface and the receiving loop on the chunks of the connection buffer, event by event, with any sizes of reads | what frames do (H2Stream, H2Wire), events (H2Loop), the enlargement of chain_max (a parameter) |
| H2Close | src/v2.c:376-425, 757-771, 1445-1471 | what closing the root stream does to the frames of H2Ack that wait to be sent or acknowledged | frames of other streams, requests and responses of the connection that ends (Life, H2Loop) |
| H2Credit | src/v2.c:1319-1376, 2882-2985, 3280-3363 | the WINDOW_UPDATE frames of one stream from the credit to the bytes on the socket, with sends that block | other frames that wait, failures of the connection |

Not modelled: the TLS protocol (only the calls of its library, see `Conn`), the compression algorithms (only the calls, see
`Codec`), `epoll`/`kqueue` beyond the contract in `Event`, signals other than those of the master's table of workers, `fork` and
memory mapping, the C API of Python, templates (`fly/template.py`), the parts of `fly/app.py` that print to the terminal, and
concurrency between processes other than that of `Master`, `Scan` and the log files (`Log`).  Allocation is taken to succeed
unless an area says otherwise.

## Properties

| id | property | area | method | result |
|---|---|---|---|---|
| C01 | Ordered index behaves like a finite map | RBTree | BST and red-black invariant by induction over operation lists, refinement to an association map, height bound from the black height | **proved** All valid histories of insert/delete; includes absence of failed asserts in the rebalancing. |
| C02 | Ordered index stays balanced | RBTree | BST and red-black invariant by induction over operation lists, refinement to an association map, height bound from the black height | **proved** Comparison count of a lookup bounded by 2*log2(n+1). |
| C03 | Entry handles stay valid | RBTree | BST and red-black invariant by induction over operation lists, refinement to an association map, height bound from the black height | **partial** Handles of all live items stay valid for every history; but the handle of a duplicate insertion is left pointing at freed memory (refuted). |
| C04 | Index entry count is exact | RBTree | BST and red-black invariant by induction over operation lists, refinement to an association map, height bound from the black height | **proved**  |
| C05 | Byte buffer is a faithful queue | Buffer | refinement to a byte queue over all histories | **partial** Queue refinement proved for every history (one initial chunk, as the server uses). The line search also looks at unreceived bytes and misses a CRLF after a stray CR: refuted. |
| C06 | Buffer never exceeds its configured capacity | Buffer | refinement to a byte queue over all histories | **partial** Count, capacity and overflow report proved; consuming everything in a completely full buffer crashes. |
| C07 | HTTP/2 frame header codec round-trips | H2Frame | arithmetic round trips, induction over setting lists and credit histories | **partial** Length, type, flags, stream id and payload pointer proved for all headers and chunk splits. The reserved bit and 31-bit payload fields crossing a chunk are misread (refuted). |
| C08 | HPACK integer codec round-trips | Hpack | round trips by induction; invariant over insertion histories; the finite code table is decided completely | **partial** Decoding proved for all integers below 2^31 over any chunking. Encoding right exactly for integers that fit the prefix or whose low byte is the prefix mask; 128 is refuted. |
| C09 | HPACK dynamic table respects its size limit | Hpack | round trips by induction; invariant over insertion histories; the finite code table is decided completely | **proved** All insertion histories and limits. |
| C10 | HPACK dynamic table evicts oldest first | Hpack | round trips by induction; invariant over insertion histories; the finite code table is decided completely | **proved** All insertion histories and limits. |
| C11 | Huffman-coded header strings decode to what the peer sent | Hpack | round trips by induction; invariant over insertion histories; the finite code table is decided completely | **partial** Round trip for all strings without byte 13, any chunking; byte 13 aborts and illegal padding is not rejected. |
| C12 | Stream identifiers only grow and are odd | H2Stream | invariants over all frame histories | **partial** All histories; a PRIORITY frame counts as opening a stream. |
| C13 | Concurrent streams are bounded | H2Stream | invariants over all frame histories | **partial** Bookkeeping exact on all histories; the limit would hold but is never set, so the number of streams is unbounded. |
| C14 | Window updates conserve the credited amount | H2Frame | arithmetic round trips, induction over setting lists and credit histories | **proved** All histories of credits and sends. |
| C15 | Flow control is respected when sending | Send | induction over schedules | **partial** Accounting exact for every schedule; respected for responses smaller than both windows; violated for every larger one. |
| C16 | Response bytes reach the client exactly once and in order | Send | induction over schedules | **partial** HTTP/2 bodies for every schedule; other frames if blocking happens only before the first byte; HTTP/1 only if one call takes everything, false for every other schedule. |
| C17 | Serialized response is well-formed and its length exact | Response | list induction, complete finite tables | **partial** Exact layout and length for every response whose announced body length is right; values containing CRLF inject headers. |
| C18 | Content-Length equals the body length | Response | list induction, complete finite tables | **partial** Handler responses and empty ones in full; static files except two negotiation outcomes for which it is refuted. HTTP/1 preparation only; encoder errors not modelled. |
| C19 | Status line shows the right code and reason | Response | list induction, complete finite tables | **partial** All statuses but 410, 411, 505, which are wrong. |
| C20 | Header list operations | Header | refinement to an association list | **partial** All histories with non-empty NUL-free names, names compared exactly; case variants are duplicated, an empty name or the removal used for Expect is undefined behaviour. |
| C21 | Request line parsing | Request | soundness and completeness against a grammar | **partial** Every origin-form line, at every arrival schedule, except queries that begin with a percent-encoded byte (cut); CONNECT, absolute-form and asterisk-form are refuted for all targets. |
| C22 | Malformed request lines are refused | Request | soundness and completeness against a grammar | **partial** Exact language of the parser for every byte string; it is wider than RFC 7230 (spaces, protocol name). |
| C23 | Request line length limit | Request | soundness and completeness against a grammar | **partial** Recognised for every arrival schedule of a CR-free line with CRLF, but building the 414 answer follows a null pointer; a line without CRLF is never recognised. |
| C24 | Route lookup picks the first registered match | Route | first-match specification, general refutations | **partial** Exact for routes without parameters; with parameters in the last segment the first fitting path wins but the method is ignored; a parameter before the last segment is never found (code defects, proved in general). |
| C25 | Path parameters are bound to their URL segment | Route | first-match specification, general refutations | **partial** A single parameter in the last segment gets exactly that segment, with the written name and type, also with blanks inside the braces; once a route is chosen, every parameter that is a whole segment gets the text at its place; bool is registered as float, only the first of several parameters of the last segment is bound and trailing text is ignored (code defects). |
| C26 | Method and version names are recognised exactly | Request | soundness and completeness against a grammar | **partial** HTTP/1 in full; HTTP/2 :method and ALPN names are matched by prefix. |
| C27 | Content-coding negotiation never picks a refused coding | Encode | parser from text to choice, memory safety of all reads | **partial** Proved for every well formed field with weights last, from the field's text to the choice; the code takes qualities below 0.01 for zero, picks gzip for * even if refused, carries weights over, sends 406 without regard to identity and sends precoded content whatever its quality (all proved). |
| C28 | Content-coding negotiation prefers the client's highest quality | Encode | parser from text to choice, memory safety of all reads | **partial** The server's priority must be higher too for a later coding to win; so gzip listed first always wins (code defect). |
| C29 | Accept header quality values | Mime | all fields of the grammar; crash characterisations | **partial** Every field with weights 0.d to 0.ddd is understood from text to result; weights 1, 1.0, 0 and 0. are answered with 400, blanks behind a range too, a parameter without weight swallows the next range, weights below 0.01 count as 0 (code defects, proved for all such fields). |
| C30 | Language/charset names never overflow their storage | Lang | grammar completeness, bounds | **partial** No field reads outside; names shorter than the field never write outside; every longer name writes one zero byte behind it (code defect, proved for all such names). |
| C31 | Only mounted files are served | Mount | refinement on top of RBTree | **partial** The claim itself holds for every history (C31_only_wanted). The converse holds for regular files with distinct relative paths. A directory is answered with its own entry instead of the index below it; removing one of two files with equal relative paths, or both, makes mounted files disappear (code defects). |
| C32 | File name comparison is a total order | Mount | refinement on top of RBTree | **partial** Exact for all names compared with their own length; the master compares new files with the padded length of the kernel's event, so that a name differs from itself (code defect, for all names). |
| C33 | Removing a directory removes exactly its files | Mount | refinement on top of RBTree | **partial** Master side. Holds for top-level directories without subdirectories and without siblings whose name continues the directory's; siblings are removed too, and nested directories make the master loop for ever (code defects, proved in general). |
| C34 | Conditional GET | Cache | decision logic, injectivity analysis | **partial** 304 is never answered: field names are stored in lower case (HTTP/1) or arrive so (HTTP/2) but are compared with capitals (code defect, proved for every request). Where a capitalised name reaches the comparison, tags are compared exactly, any readable date gives 304 and an empty value crashes. |
| C35 | ETags distinguish contents | Cache | decision logic, injectivity analysis | **partial** Equal digests get equal tags; the exact collisions are characterised: all bytes from 128 on are printed as ff (code defect). The hashed text is unambiguous for times from 2001 to 2286 only. |
| C36 | Timers: every expired connection is detected | Event | invariants over histories on top of RBTree | **proved** Every history of registrations, changes, extensions and removals over the red-black index of the code. |
| C37 | Timers never fire early | Event | invariants over histories on top of RBTree | **partial** Marked at most a second early; every timer due later in the same second is marked, and a timer extended after it was marked is closed anyway (code defects, proved for all histories). |
| C38 | Event loop waits for the nearest deadline | Event | invariants over histories on top of RBTree | **partial** Exact to a millisecond for deadlines within 24 days; deadlines 25 to 49 days away make the loop spin (code defect). |
| C39 | Event registration bookkeeping | Event | invariants over histories on top of RBTree | **proved** Every legal history; the keys of the index are pointers and their deadlines are read from the events, as in the code. |
| C40 | Time arithmetic | Event | invariants over histories on top of RBTree | **partial** Addition for all times, subtraction and comparison up to 2038; from then on the casts to int break them (code defect). |
| C41 | Configuration file | Conf | induction over lines | **partial** Every file of correct lines below 1024 bytes ended by line feeds; unknown items and lines of a wrong shape are refused. A last line without line feed is refused or overruns the buffer, long lines overrun it, the rest of a long comment is read as a line, text after the value and junk after digits are accepted, a bad number ends the process with status 0, and a refused file is half applied (code defects, proved in general). |
| C42 | Memory pool | Pool | invariant over histories on top of Link and RBTree | **proved** Every history of allocations and arbitrary frees, with the list links and the red-black index of the code. |
| C43 | Worker processes are kept at the configured number | Master | invariants over notification histories | **partial** Every history of ends that are noticed one by one; without stopped workers the number never exceeds the configured one. A stopped worker is replaced and comes back (no bound on the number), the second of two ends before a read and an end before the signals are set up are never noticed, and an unknown exit status aborts the master (code defects, proved in general). |
| C44 | Application routes are unique | PyRoute | induction over registration histories and over lists changed while walked | **proved** Every history of registrations; a final newline of the path is dropped silently. |
| C45 | Default response headers never override handler headers | PyRoute | induction over registration histories and over lists changed while walked | **proved** Every response, text, bytes or missing result; names compared on ASCII letters. |
| C46 | Set-Cookie value | PyArgs | round trips by induction, UTF-8 decoder correct for every scalar value | **partial** Every combination of attributes that are not zero or empty; a lifetime of 0 is never written, and a semicolon in a value adds attributes (code defects, proved in general). |
| C47 | Handler argument binding order | PyArgs | round trips by induction, UTF-8 decoder correct for every scalar value | **partial** Every request and list of parameters with lower-case names that are no entries of the request; names with capitals, shadowed names, entries without value and **kwargs fail (code defects, proved in general). Parameters without annotation only. |
| C48 | Query string parsing | PyArgs | round trips by induction, UTF-8 decoder correct for every scalar value | **partial** Every list of Unicode names and values and every percent-encoding of them; a plain = in a value cuts it and + is not a space (code defects). |
| C49 | CORS configuration covers every route | PyRoute | induction over registration histories and over lists changed while walked | **partial** Every path gets an OPTIONS route and its first route the headers; any further method of the path gets none (code defect, proved for every table). |
| C50 | Requests larger than the limit never reach a handler | ReqEvent | induction over arrival schedules; independence of the split | **partial** Bodies the application sees: every schedule. 413/417/100 for every well-formed request and schedule. The 413 comes only after the whole announced body (never for a negative length), and going on after 100 is undefined behaviour. |
| C51 | Response selection for static content | ReqEvent | induction over arrival schedules; independence of the split | **proved** HTTP/1, every well-formed request and schedule. |
| C52 | Percent-encoding and character classes | Request | soundness and completeness against a grammar | **partial** Path, query and userinfo classes in full; the token class accepts delimiters. |
| C53 | Decimal length formatting | Response | list induction, complete finite tables | **proved** All natural numbers. |
| C54 | Queues and lists | Link | separation-style invariant over any number of lists | **partial** All legal histories over any number of lists and queues. Popping takes the element pushed last; popping an empty queue makes the count -1 and removing an element twice corrupts other lists (code defects, outside the legal histories). |
| C55 | HTTP/2 connection preface | H2Frame | arithmetic round trips, induction over setting lists and credit histories | **partial** Decision correct once 24 bytes are there; a preface split over two reads is refused (depends on recycled memory). |
| C56 | Peer settings are applied as the RFC says | H2Frame | arithmetic round trips, induction over setting lists and credit histories | **partial** RFC behaviour for all lists of settings except the three refuted cases. |
| C57 | PING is answered by a PING acknowledgement | H2Frame | arithmetic round trips, induction over setting lists and credit histories | **partial** Opaque data echoed; frame type is GOAWAY without ACK for every PING (refuted). |
| C58 | GOAWAY and RST_STREAM carry the right stream and code | H2Frame | arithmetic round trips, induction over setting lists and credit histories | **proved**  |
| C59 | The server's SETTINGS frame announces every configured setting | H2Frame | arithmetic round trips, induction over setting lists and credit histories | **partial** Right for one setting; for two or more only the last is written, at the front (refuted for every such list). |
| C60 | HTTP/2 header blocks mean what RFC 7541 says | Hpack | round trips by induction; invariant over insertion histories; the finite code table is decided completely | **partial** All blocks and table histories except the refuted cases. |
| C61 | HTTP/2 response headers arrive unchanged | Hpack | round trips by induction; invariant over insertion histories; the finite code table is decided completely | **partial** All header lists with short strings and no proper-prefix collision with the static table, while the client inserted nothing. |
| C62 | Nothing is processed after GOAWAY | H2Stream | invariants over all frame histories | **partial** All histories; but a legal late WINDOW_UPDATE ends the connection. |
| C63 | HTTP/2 requests are answered exactly when complete | H2Stream | invariants over all frame histories | **partial** Only complete requests on all histories; answered at once if in one HEADERS frame; CONTINUATION is never served, a late DATA frame answers twice, DATA on stream 0 is undefined behaviour. |
| C64 | HTTP/2 request bodies arrive intact | H2Stream | invariants over all frame histories | **partial** All histories without padding. |
| C65 | Received DATA is credited back | H2Stream | invariants over all frame histories | **partial** All histories without padding. |
| C66 | Response headers are framed correctly | Send | induction over schedules | **partial** Splitting proved for every field list over an unlimited buffer; the code's buffer holds 1000 bytes. |
| C67 | Connection persistence follows the headers | Header | refinement to an association list | **partial** Response side for all header lists; the request's header is ignored. |
| C68 | HTTP/2 request targets | H2Stream | invariants over all frame histories | **partial** All paths and queries without percent-encoding; with it, every request is refused. |
| C69 | Request header fields are delivered exactly | ReqHeader | exact result for every NUL-free block | **partial** Exact result for every NUL-free header block; fields without a blank behind the colon or with obs-text are dropped, trailing blanks are kept, a name over two buffer blocks is cut. |
| C70 | Malformed header lines are refused | ReqHeader | exact result for every NUL-free block | **partial** The header is read the same whatever follows it; malformed lines are ignored instead of refused. |
| C71 | The answer does not depend on how a request arrives | ReqEvent | induction over arrival schedules; independence of the split | **partial** Every HTTP/1.1 request with a header field; requests without one, and clients that half-close, are refuted. Misbehaviour exactly for lines of 8000 bytes and version HTTP/2. |
| C72 | The Allow field lists exactly the methods registered for the path | Route | first-match specification, general refutations | **partial** Every method of the path is listed; methods of shorter paths and GET are listed as well and those of routes with parameters are not (code defects). |
| C73 | Parsing Accept-Encoding is memory safe and accepts every valid value | Encode | parser from text to choice, memory safety of all reads | **partial** Reads are proved safe for all values and well formed values are parsed; names of 20 characters and qualities with many zeros overflow stack buffers (code defects). |
| C74 | Accept-Language and Accept-Charset are understood | Lang | grammar completeness, bounds | **partial** Every well-formed field without blanks in front of commas, names shorter than the name field; blanks in front of a comma and tabs in Accept-Charset are answered with 400 (code defects). Qualities are exact decimals, the code stores the nearest float. |
| C75 | No Accept field harms the server | Mime | all fields of the grammar; crash characterisations | **partial** Every value without quoted strings, extensions and 31 visible characters in a row is safe; an extension behind a weight crashes the server and long subtypes overflow (code defects, proved for all such fields). |
| C76 | Expired connections are closed | Event | invariants over histories on top of RBTree | **partial** A turn without ready events closes every expired connection; as long as events are ready none is ever closed (code defect). |
| C77 | Every file gets an entity tag | Cache | decision logic, injectivity analysis | **partial** Files with positive times; a time of 0 or before 1970 makes the tag and the mount fail (code defect). |
| C78 | Mounting makes everything below a directory available | Scan | induction over directory trees | **partial** Every tree whose names are below 255 bytes and whose directories can be opened, up to the answers of lookups; names of 255 bytes are left out (code defect), an unreadable directory makes the mount fail. |
| C79 | The configured number of files is a limit | Scan | induction over directory trees | **partial** The limit is only tested when a directory is entered: one directory of any size is mounted completely (code defect). |
| C80 | After a change, workers serve what exists | Scan | induction over directory trees | **partial** Holds when everything can be opened, paths are short, no other mount point shares a path and no directory became a file. A dangling link or unreadable file ends the server, files below a replaced directory stay, shared names and long paths are not registered (code defects). |
| C81 | Responses describe the present file | Scan | induction over directory trees | **partial** Only untouched files are described correctly: a notice updates the tag alone, never length, date and descriptor (code defect, for every sequence of changes). |
| C82 | Changing the application file reloads the application | Master | invariants over notification histories | **partial** Renaming, removing and touching reload; writing the file aborts the master, and the mode is ignored (code defects). |
| C83 | Ending the server ends its workers | Master | invariants over notification histories | **partial** Every history without stopped workers; a worker that was stopped and continued is forgotten (code defect). |
| C84 | Exceptions in a handler become responses | PyRoute | induction over registration histories and over lists changed while walked | **partial** All exceptions; SystemExit and unexpected result types in production make the handler wrapper itself raise (code defects). |
| C85 | CORS configuration in production | PyRoute | induction over registration histories and over lists changed while walked | **partial** Preflight routes and the other headers survive; Access-Control-Allow-Origin never does, and a debug-only configuration leaves every second preflight route in place (code defects, proved for every table). |
| C86 | Debug routes are not served in production | PyRoute | induction over registration histories and over lists changed while walked | **proved** Every history and CORS configuration. |
| C87 | No traceback reaches a client in production | PyRoute | induction over registration histories and over lists changed while walked | **partial** Holds for applications created with debug=False; with the --production switch every traceback is sent (code defect, for every application). |
| C88 | Headers given to a response are sent | PyRoute | induction over registration histories and over lists changed while walked | **partial** add_header works for every list; the constructor's argument is always dropped (code defect). |
| C89 | Cookies of a request are seen with their values | PyArgs | round trips by induction, UTF-8 decoder correct for every scalar value | **partial** Every list of cookies without = in their values; no value with = is ever seen (code defect, proved for all headers). |
| C90 | Form fields arrive as they were filled in | PyArgs | round trips by induction, UTF-8 decoder correct for every scalar value | **partial** Every form without & and = in names and values; no value with them is ever seen, and content types are compared letter by letter (code defects, proved for all bodies). |
| C91 | Typed path parameters | PyArgs | round trips by induction, UTF-8 decoder correct for every scalar value | **partial** Every int segment, of any size (exact grammar); every non-empty bool is True (code defect). float is a parameter of the model. |
| C92 | Command line options win over the configuration file | Cli | composition with Conf | **partial** Every file of lines ended by a line feed and every correct option value; a file without final line feed swallows the first option, and a path is cut at a space (code defects, proved in general). |
| C93 | The application's own configuration file is used | Cli | composition with Conf | **partial** Holds only when the same file is also named on the command line; otherwise it is never read (code defect, for every file and all options). |
| C94 | What a handler returns is what the client receives | PyBridge | parse-back of the sent bytes | **partial** Every known status, field list, table content type and body, with or without compression, over HTTP/1.1, parsed back from the bytes; the header list over HTTP/2. HEAD, constructor headers, other content types and statuses, empty names and empty JSON fail (code defects, proved in general). |
| C95 | Failures give 500 and oversize bodies 413 | PyBridge | parse-back of the sent bytes | **proved** Every failure, every malformed response object and every body over the limit (before or after encoding), HTTP/1.1, on the wire; HTTP/2 up to the header list. |
| C96 | Content configured for a status is sent with it | PyBridge | parse-back of the sent bytes | **partial** Never sent over HTTP/1.1 (code defect, for every content and configuration); HTTP/2 sends it but its frames are not modelled. |
| C97 | A handler sees the request as it was sent | PyReq | exactness of UTF-8 decoding, both directions | **partial** The dictionary is exactly the request for every request of UTF-8 texts, and for no other; all others but bad path parameters are undefined instead of refused (code defect, proved in general). Version, scheme, peer, Accept lists and multipart bodies are left out. |
| C98 | Multipart forms arrive as they were sent | Multipart | round trip by induction over parts and contents; safety invariant over suffixes | **partial** Every boundary and every list of parts, with preamble and epilogue, in the usual writing or with any blanks around the colons of part header fields. Empty forms, contents beginning with NUL, other letters in field names, other or no blanks and parameters in the content type, and the boundary within a line fail (code defects, proved in general). |
| C99 | No request body harms the server | Multipart | round trip by induction over parts and contents; safety invariant over suffixes | **partial** Safe for every multipart body without NUL that ends with a line break; other content types, a hyphen at the end and truncated parts read outside (code defects, proved in general). |
| C100 | HTTP/2 requests are understood, malformed ones refused | H2Request | invariants over the field loop; comparison with the HTTP/1 model | **partial** Every well-formed request without percent-encoding whose fields say in an understood form what is accepted, do not refuse everything, and describe no content type or coding; every request with an unknown pseudo field, method or scheme, or without method or path, is refused. The scheme is always http, and doubled, misplaced, extended and missing pseudo fields are accepted (code defects, proved in general). |
| C101 | Every HTTP/2 request is answered | H2Request | invariants over the field loop; comparison with the HTTP/1 model | **partial** Every list of named fields, however malformed, with understandable Accept fields (or none) and no content type or coding; empty scheme or language, announced bodies that do not come and nameless fields follow null pointers (code defects, proved in general). |
| C102 | Encoded request bodies are decoded | H2Request | invariants over the field loop; comparison with the HTTP/1 model | **partial** Only bodies without coding are delivered. Over HTTP/2 no byte of an encoded body reaches the application, for every coding; over HTTP/1 the field is never found (code defects, proved in general). |
| C103 | Both protocols give the same answer | H2Request | invariants over the field loop; comparison with the HTTP/1 model | **partial** Every request without percent-encoding, content type or coding that does not refuse every form of response, for which the file search agrees; directories differ (code defect). |
| C104 | HTTP/2 response bodies arrive as announced | H2Body | equality of all loops with one reference loop on calm connections, induction over schedules | **partial** Every application body and every encoding; unchanged files without TLS, or up to 4096 bytes with TLS. Larger files over TLS overrun a stack buffer, changed files spin or break the framing, default contents spin or are cut, an unaccepted stored encoding is sent in a frame of another length, identity follows a null pointer (code defects, proved in general). |
| C105 | A client that goes away harms only its own connection | H2Body | equality of all loops with one reference loop on calm connections, induction over schedules | **partial** Bodies on both kinds of connection, encodings over TLS. While a file is sent without TLS a closed connection ends the worker at every point of the transfer; a signal while an encoding is sent leads before the buffer (code defects, proved in general). |
| C106 | Each response is recorded by one line of the access log | Log | inductive invariant over all schedules; reading lines back | **partial** Every HTTP/1 entry below 297 bytes, HTTP/2 requests without query. Longer entries join the next line, HTTP/2 queries are cut, clients can write lines of their own into the log by refused HTTP/2 targets, and an entry written in two pieces loses its end (code defects, proved in general). |
| C107 | Log entries of all processes arrive whole and nothing recorded is lost | Log | inductive invariant over all schedules; reading lines back | **partial** All schedules, crash points and numbers of processes for entries of log.c. Messages of err.c overwrite the beginning of an old log after a restart and leave a lock behind that makes another process wait for ever (code defects, proved in general). |
| C108 | Time stamps denote the time of the event | Log | inductive invariant over all schedules; reading lines back | **partial** Zones of whole hours without summer time. Minutes of other zones and all times during summer time are wrong (code defects, proved in general). |
| C109 | Log entries go where the configuration says | Log | inductive invariant over all schedules; reading lines back | **partial** Files and standard output. Standard error gets no entry, a path of exactly 4096 bytes is not terminated, fatal errors are lost without a log directory (code defects, proved in general). |
| C110 | The reason why a process ended is recorded | Log | inductive invariant over all schedules; reading lines back | **partial** Every error that ends a worker. Emergencies raised with a format are undefined, others are cut to 199 bytes (code defects, proved in general). |
| C111 | The protocol of a connection is the one the client asked for | Conn | inductive invariant over all histories; induction over the offered names | **partial** Every list of names of at most 127 bytes; every first byte and every schedule of the handshake. A name of 255 bytes before h2 makes the worker loop for ever, names of 128 to 254 bytes make it read before the list (code defects, proved in general). |
| C112 | One client's connection does not harm the others | Conn | inductive invariant over all histories; induction over the offered names | **partial** Every history without resets before or in a plain request, failing accept, 100 responses, or a handshake broken off: these end the worker or leave a socket with a freed event (code defects, proved in general). Memory of HTTP/2 streams is not followed here. |
| C113 | Silent clients are disconnected | Conn | inductive invariant over all histories; induction over the offered names | **partial** Clients that have begun to speak HTTP. Clients silent from the start, or in the handshake, make the worker follow a null pointer when their time is over (code defect, proved for every such history). |
| C114 | Connections leave no memory behind | Conn | inductive invariant over all histories; induction over the offered names | **partial** Every history without malformed request lines, each of which loses one request (code defect, proved in general). |
| C115 | Requests on one connection are answered one by one, in order | Keep | refinement of the request model by an account of the results taken; induction over rounds | **partial** Every number of requests within the limits, or with refused fields and no content, each sent after the previous answer. Pipelined requests are thrown away, and the body of a request refused for its header is taken for the next request and carried out (code defects, proved in general). |
| C116 | Connection: close is honoured | Keep | refinement of the request model by an account of the results taken; induction over rounds | **partial** The application's wish is honoured, the client's never (code defect, proved for every request within the limits). |
| C117 | Annotated parameters get what their annotation names | PyForm | induction over parameters, parts and texts; composition with the multipart reader (C98) | **partial** All requests and parameter lists. Parameters after an un-annotated parameter with the name of the request's entry, and names with capitals, are None in every call (code defects, proved in general). |
| C118 | Form parameters receive the fields of a multipart form | PyForm | induction over parameters, parts and texts; composition with the multipart reader (C98) | **partial** From the bytes of the body to the fields, for different names without quotes. Repeated names keep only the last field; other legal writings of the disposition make the whole form a 400 (code defects, proved in general). |
| C119 | Forms that cannot be read are refused as the client's error | PyForm | induction over parameters, parts and texts; composition with the multipart reader (C98) | **partial** Missing and unsupported types, missing bodies, unreadable dispositions and invalid fields. Malformed JSON, bytes that are no UTF-8 and multipart bodies whose parts are not found are 500; null calls the handler (code defects, proved in general). |
| C120 | Responses encoded with gzip are complete | Codec | loop invariant over the chunks with a measure of room and input | **proved** For every library that keeps the promises of `ZlibOk` (Spec), an instance of which is given. |
| C121 | Responses encoded with deflate are complete | Codec | loop invariant over the chunks with a measure of room and input | **partial** Handler bodies whose encoding has at most 4096 bytes. Longer ones crash the process, and no file is ever sent correctly: small ones are answered 413, large ones get a Content-Length beyond the content (code defects, proved in general). |
| C122 | Responses encoded with brotli are complete | Codec | loop invariant over the chunks with a measure of room and input | **partial** Handler bodies whose encoding has at most 4096 bytes. Longer encodings, also of files, are cut after 4096 bytes and sent as complete (code defect, proved in general). |
| C123 | Files encoded in advance are complete | Codec | loop invariant over the chunks with a measure of room and input | **proved** For gzip, the coding used for files found by the scan. |
| C124 | Every complete HTTP/2 request is answered, however it arrives | H2Loop | invariants over all schedules; a measure for progress | **partial** A request that arrives on an idle connection, in every schedule. Frames received behind a request wait until more bytes come (code defect, proved for every schedule). |
| C125 | SETTINGS and PING are answered | H2Loop | invariants over all schedules; a measure for progress | **partial** Order and completeness of sent plus queued frames. What is queued is not sent until a request or body makes the server write (code defect, proved for every schedule). |
| C126 | A cancelled request does not affect the others | H2Loop | invariants over all schedules; a measure for progress | **partial** Refuted: the responses behind a cancelled one are never sent (every schedule); a cancelled response without content aborts the worker. |
| C127 | A stream that may not send holds up nobody | H2Loop | invariants over all schedules; a measure for progress | **partial** Refuted: head-of-line blocking and a busy loop, for every schedule. |
| C128 | A client is told why its connection is ended | H2Loop | invariants over all schedules; a measure for progress | **partial** Refuted: no GOAWAY is ever sent, on any history, unless the worker ends. |
| C129 | No HTTP/2 client ends the worker | H2Loop | invariants over all schedules; a measure for progress | **partial** Refuted from every idle connection. |
| C130 | Only bytes that have arrived are handled | H2Loop | invariants over all schedules; a measure for progress | **partial** Frames within the limit, all schedules. Longer frames are handled when only their header has arrived (code defect, proved from every idle connection). |
| C131 | PRIORITY frames are harmless | H2Prio | ring invariant by induction over the frames; a set of streams closed under the successor pointer for the endless loop | **partial** Different streams depending on the root in falling order of weight, any number. Unknown dependencies crash, a heavier third stream makes the next frame loop for ever, and closed streams are used after free (code defects, proved in general). |
| C132 | Stream weights are recorded as sent | H2Prio | ring invariant by induction over the frames; a set of streams closed under the successor pointer for the endless loop | **partial** All weights but 256, which is recorded as 0 (code defect). |
| C133 | Stream dependencies are recorded as sent | H2Prio | ring invariant by induction over the frames; a set of streams closed under the successor pointer for the endless loop | **partial** The first dependent of a stream without siblings before it. Dependents of a second dependent go to the wrong list, exclusive dependencies take over nobody (code defects, proved in general). |
| C134 | At most one server per pid file | Start | inductive invariants over all histories (one owner per file); loop invariants for descriptors and blocks | **proved** All histories and interleavings. |
| C135 | The pid file names the running server | Start | inductive invariants over all histories (one owner per file); loop invariants for descriptors and blocks | **partial** Servers that are no daemons, when writes take the whole number. The file of a daemon names the process that was started and has ended; a short write goes unnoticed (code defects, proved for every history). |
| C136 | A stopped server can be started again | Start | inductive invariants over all histories (one owner per file); loop invariants for descriptors and blocks | **partial** A start without pid file. Nothing removes the file (the routine has no caller), so nothing can be started again, and a reload ends the server (code defects, proved for every history). |
| C137 | Only the own pid file is removed | Start | inductive invariants over all histories (one owner per file); loop invariants for descriptors and blocks | **proved** Every number and content; the routine has no caller (see C136). |
| C138 | A daemon keeps its sockets and logs and nothing else | Start | inductive invariants over all histories (one owner per file); loop invariants for descriptors and blocks | **partial** All tables in which the kept descriptors are not standard streams and nothing is open above the limit. A kept descriptor 1 or 2 is lost (code defect, proved in general). |
| C139 | A failing daemon start is reported | Start | inductive invariants over all histories (one owner per file); loop invariants for descriptors and blocks | **partial** A failing first fork. Later failures are ignored or seen by nobody (code defects, proved for every combination). |
| C140 | The listening socket is made or nothing is left | Start | inductive invariants over all histories (one owner per file); loop invariants for descriptors and blocks | **partial** All address lists when sockets can be made non-blocking and reusable. Otherwise descriptors leak, and the reason is an uninitialised pointer (code defects, proved in general). |
| C141 | The portable sendfile sends what is asked for | Start | inductive invariants over all histories (one owner per file); loop invariants for descriptors and blocks | **partial** Whole blocks of 4096 bytes on a connection that takes everything. Any other count, short file, partial write or missing offset fails (code defects, proved in general). |
| C142 | Added content is picked up while the server runs | Watch | two inductive invariants (growing trees with every schedule; files with the master catching up), explicit computation of the states after a rename | **proved** Every tree, history and interleaving; registering a new directory with its contents is one step of the model. |
| C143 | The server follows the files of a mount point | Watch | two inductive invariants (growing trees with every schedule; files with the master catching up), explicit computation of the states after a rename | **proved** Every set of files and history in which the master catches up between changes; renaming inside the mount point is in C145. |
| C144 | Changing served files does not end the server | Watch | two inductive invariants (growing trees with every schedule; files with the master catching up), explicit computation of the states after a rename | **partial** Growing trees with every schedule, and calm histories. A file that is gone before the master looks ends the server (code defect, proved for every mount point and history). Removal of directories is in Mount. |
| C145 | Every change of served files is noticed | Watch | two inductive invariants (growing trees with every schedule; files with the master catching up), explicit computation of the states after a rename | **partial** Changes of files of the mount point without renaming, and additions outside sub-directories of the start. Additions to those, and writes to renamed or replaced files, are never noticed (code defects, proved in general). |
| C146 | Ready connections are handled once each, in order | Dispatch | invariant over all histories of turns; every pass is characterised by its effect and its observations | **proved** All handlers with the contract stated in Spec (flag FLY_CLOSE_EV exactly if closed; new descriptors are new; log entries neither fail nor register). Whether single handlers keep it is in Conn and H2Loop. |
| C147 | A failing connection is closed once and forgotten | Dispatch | invariant over all histories of turns; every pass is characterised by its effect and its observations | **proved** As C146. |
| C148 | The other connections are left alone | Dispatch | invariant over all histories of turns; every pass is characterised by its effect and its observations | **proved** As C146. |
| C149 | An acknowledgement leaves the client's settings in force | H2Ack | invariant over arbitrary histories: live frames are those on the two lists; calm histories by induction; the refutations are general in the history, the settings and the memory's contents | **partial** Holds if no FLY_SETTINGS_ variable is set; otherwise false of the code: on the acknowledgement the server's own values, cut to 16 bits, and for two or more settings unwritten memory, replace the client's settings. |
| C150 | Frames waiting to be sent outlive an acknowledgement | H2Ack | invariant over arbitrary histories: live frames are those on the two lists; calm histories by induction; the refutations are general in the history, the settings and the memory's contents | **partial** Holds if no acknowledgement arrives while a SETTINGS frame of the server waits; otherwise false of the code (use after free), also with a client that keeps to the protocol. |
| C151 | The memory of control frames is given back | H2Ack | invariant over arbitrary histories: live frames are those on the two lists; calm histories by induction; the refutations are general in the history, the settings and the memory's contents | **partial** Frames are given back after every calm history; payloads of configured settings never are. |
| C152 | Files are served under the media type of their extension | FileType | the loop over dots ends behind the last one (induction); the table by cases | **proved** For every path. |
| C153 | The page of a status is the file with its number | Pages | induction over the table's rows for an arbitrary file system | **partial** False of the code for 411, which is missing from the table, and for directories with paths over 4086 bytes (buffer overflow). |
| C154 | Signals that do not ask for the end do not end the server | Signals | invariants over histories of arrivals and reads; lists of saved actions by induction; permutations of children | **partial** Exactly which signals are survived. A program started by a route function ends the worker when it ends; SIGCONT, SIGTSTP, SIGURG end the server; a file that changes kills a worker that starts (code defects). |
| C155 | The server leaves signal actions as the program set them | Signals | invariants over histories of arrivals and reads; lists of saved actions by induction; permutations of children | **proved** For every program. |
| C156 | The server leaves the signal mask as the program set it | Signals | invariants over histories of arrivals and reads; lists of saved actions by induction; permutations of children | **partial** False of the code: all signals are blocked afterwards (or unblocked, without sigsetjmp). |
| C157 | A broken application file is loaded again when it is corrected | Signals | invariants over histories of arrivals and reads; lists of saved actions by induction; permutations of children | **proved** With blocked signals (after a reload) and without (before the first run). |
| C158 | A server that waits for a correction can be terminated | Signals | invariants over histories of arrivals and reads; lists of saved actions by induction; permutations of children | **partial** Before the first run; after a reload it is false of the code for every signal but SIGINT and SIGKILL. |
| C159 | A reload ends all old workers first | Signals | invariants over histories of arrivals and reads; lists of saved actions by induction; permutations of children | **partial** Every history of ends, noticed or not, and every order; a stopped worker is forgotten and one that does not end blocks the reload for ever (code defects). |
| C160 | SIGUSR1 does not make the master lose workers | Signals | invariants over histories of arrivals and reads; lists of saved actions by induction; permutations of children | **partial** Every history of the workers' own notices and of kill; false for sigqueue with a worker's process id. |
| C161 | The descriptors of the event loop do not pile up | Life | case analysis of a start (inductive relation Started), invariants by induction over the history; induction over linked lists | **proved** For every initial state, system and history of changes and ends. |
| C162 | Reloading leaves no descriptors open | Life | case analysis of a start (inductive relation Started), invariants by induction over the history; induction over linked lists | **partial** Holds without a configuration file and logs; refuted otherwise: the configuration file and the three logs are never closed, the exact number after n reloads is given, and the server ends once they reach the limit. |
| C163 | Ending a server touches no freed memory | Life | case analysis of a start (inductive relation Started), invariants by induction over the history; induction over linked lists | **partial** Holds for the list of signal actions; refuted for the list of watched paths, which is never empty. |
| C164 | Every change of the application is served | Life | case analysis of a start (inductive relation Started), invariants by induction over the history; induction over linked lists | **partial** Holds while stack and descriptors suffice; refuted for more reloads than a third of Python's recursion limit. |
| C165 | A failed start can be corrected | Life | case analysis of a start (inductive relation Started), invariants by induction over the history; induction over linked lists | **partial** Holds for applications without routes and mount points; refuted for files that raise, for refused mount points (the port stays taken) and for a default content path. |
| C166 | The command line stays in force | Life | case analysis of a start (inductive relation Started), invariants by induction over the history; induction over linked lists | **partial** Holds for options that go into the configuration; refuted for --production, --print_request and applications with config_path. |
| C167 | The status of the command tells a failure | Life | case analysis of a start (inductive relation Started), invariants by induction over the history; induction over linked lists | **partial** Holds for application files that cannot be loaded at first; refuted for all other failures: sys.exit(0) in finally. |
| C168 | A server that starts serves exactly what the application mounted | Points | induction over path components with a budget of links; injectivity of the rendering of paths; invariant over the loop that drops files | **proved** Every environment and list of calls; the exact files for allowed names and paths that are not too long (others: C142 and Scan). |
| C169 | An application whose directories exist starts | Points | induction over path components with a budget of links; injectivity of the rendering of paths; invariant over the loop that drops files | **partial** Holds for directories reached without symbolic links and without exactly two leading slashes; otherwise the server never starts (code defect). |
| C170 | The limit of mount points holds | Points | induction over path components with a budget of links; injectivity of the rendering of paths; invariant over the loop that drops files | **proved** For non-negative limits. |
| C171 | A mount point that disappears takes only its own files with it | Points | induction over path components with a budget of links; injectivity of the rendering of paths; invariant over the loop that drops files | **partial** A worker takes exactly the right files out of its index; then unmounting reads the freed path, or ends the process when it was the only mount point (code defects). |
| C172 | From the client's bytes to the function and back | Trip | composition of the area theorems; induction over the exchanges | **partial** Composition of the request, routing, dictionary, response and sending models: holds for whole responses taken by the kernel at once, after any number of blocked calls. Refuted when a response takes two write calls, for HEAD, and for paths with a parameter before the last segment. Not covered: multipart contents and files. |
| C173 | A closing response is the last one and is complete | Trip | composition of the area theorems; induction over the exchanges | **partial** Holds, also for 413 responses, when the response is taken in one write call; refuted otherwise. |
| C174 | CORS decorators do exactly what they say | PyCors | invariant over loading (unique, stored paths; routes with fields have an OPTIONS route), so a decorated route is final; induction over definitions for the refutations | **proved** For every file that loads in debug mode; functions are arbitrary. |
| C175 | CORS in production is what was asked for in production | PyCors | invariant over loading (unique, stored paths; routes with fields have an OPTIONS route), so a decorated route is final; induction over definitions for the refutations | **partial** With Fly(debug=False): debug-only decorators leave no trace and preflight answers are complete, but the responses lack Access-Control-Allow-Origin; with --production debug-only CORS stays on all routes but the first (code defects). |
| C176 | A route that can be registered can have CORS | PyCors | invariant over loading (unique, stored paths; routes with fields have an OPTIONS route), so a decorated route is final; induction over definitions for the refutations | **partial** Holds for paths written as stored, the first route of a path, text methods; otherwise the application does not load (code defects). |
| C177 | Round trips over HTTP/2 | H2Trip | composition of the area theorems; induction over the exchanges with the entries of the client's table as invariant | **partial** Composition of the HPACK, request, routing, dictionary, response, content and frame models, read by a client written after RFC 9113 and 7541. Holds for contents smaller than the windows and a frame. The client may index its header fields. Malformed requests get a 400 and discarded contents a 413. Refuted for contents as long as a window, longer than a frame, or too long when encoded, for HEAD, and for response fields that the client has entered in its own table. Clients that refuse everything: C195. Not covered: forms, content codings of requests; files: C194. |
| C178 | Serving does not change the texts of the application | PyText | invariant: every text is the original one but for capital letters; a lower-cased text stays so | **partial** Holds for HTTP/1 and for names without capital letters, and always but for capital letters; an HTTP/2 response makes the names it contains lower case in the application's own str objects, for good (code defect). |
| C179 | A worker comes up with everything that is mounted | WStart | induction over files and pages with the number of descriptors left; composition with the master's theorems | **proved** TLS certificates and memory are left out. |
| C180 | A file that cannot be read costs only itself | WStart | induction over files and pages with the number of descriptors left; composition with the master's theorems | **partial** Other files are served if the unreadable file is not one to be encoded in advance. Otherwise every worker exits and the master ends the server; and one GET of an unreadable small file ends the worker (code defects). |
| C181 | With few descriptors the server serves or says that it cannot | WStart | induction over files and pages with the number of descriptors left; composition with the master's theorems | **partial** Exact bounds for small files: with too few descriptors workers exit and are replaced without end; with one too few they serve but are deaf to SIGTERM (code defects). |
| C182 | A cookie the application sets comes back | Session | the jar after a history determines each name's entry (induction from the end of the history); composition with C46 and C89 | **partial** Full for names and values without ; and = whose parameter names differ, one host and path, no Secure. Refuted (code defects) for max_age=0, for values with =, and for names differing only in capitals, - and _. |
| C183 | Dates in responses are HTTP dates | Date | the calendar by counting days (Spec) equals the POSIX formula, by induction over years; a time has one date and a date one time | **proved** For programs that do not set a locale (see C184). gmtime_r is any function with the POSIX contract; one is given and proved to meet it. |
| C184 | Dates do not depend on the locale | Date | the calendar by counting days (Spec) equals the POSIX formula, by induction over years; a time has one date and a date one time | **partial** Full for locales with English names; refuted for every other locale on every day or in every month with another name (strftime with %a and %b, code defect). |
| C185 | Files and functions of a site over one connection | Site | composition with Trip; the fields of the reader are those written; the state after a history is its last write and last notice | **partial** Extends C172 to mounted files. Refuted (code defects): a file for which identity was chosen is sent from a null pointer; a file kept in an encoded form goes encoded, unannounced and followed by server memory to clients that do not accept the coding. Changed files are C186; what C172 leaves out is left out here. |
| C186 | A client gets the content a file has | Site | composition with Trip; the fields of the reader are those written; the state after a history is its last write and last notice | **partial** Holds for contents of the length the file had when it was mounted, and for contents encoded on request. Refuted (code defects): shorter contents are filled up with server memory, longer ones are cut, files encoded in advance are never encoded again. |
| C187 | Allow omits no supported method | Site | composition with Trip; the fields of the reader are those written; the state after a history is its last write and last notice | **proved**  |
| C188 | Allow lists only supported methods | Site | composition with Trip; the fields of the reader are those written; the state after a history is its last write and last notice | **partial** Full when no path of a function is a proper beginning of the path; refuted whenever one is (strncmp with the length of the route, code defect). |
| C189 | Requests of many clients have one order | Serve | the request handler cannot tell a pause from bytes that have not arrived (extension lemma), so each connection keeps the invariant of one exchange; induction over the schedule; a measure for progress | **partial** Full for clients that wait for each response before the next request; leaves out HEAD, multipart contents, responses that close the connection and responses the kernel takes in several writes (C16, C94, C115, C173: code defects). |
| C190 | The order of handling respects real time | Serve | the request handler cannot tell a pause from bytes that have not arrived (extension lemma), so each connection keeps the invariant of one exchange; induction over the schedule; a measure for progress | **partial** As C189. |
| C191 | Every request is answered, whatever other clients do | Serve | the request handler cannot tell a pause from bytes that have not arrived (extension lemma), so each connection keeps the invariant of one exchange; induction over the schedule; a measure for progress | **partial** As C189, as long as the worker runs; clients of this kind do not stop it. Refuted without that condition: in every state one request with Expect: 100-continue on a fresh connection ends the worker (code defect, C50), and so does one request line of 8000 bytes or more (code defect, C23). |
| C192 | HTTP/2 errors are reported with the right code | H2Stream | invariants over all frame histories | **partial** Full for PRIORITY, RST_STREAM, SETTINGS, PING, GOAWAY, WINDOW_UPDATE within the announced size, header blocks of HEADERS and the stream state of DATA. Refuted: oversized frames get PROTOCOL_ERROR and are handled, acknowledgements with content are accepted, zero increments (C65), CONTINUATION (C63) (code defects). |
| C193 | The length of a request's body comes from its fields | BodyLen | lower case of both texts is equal iff the texts are the same up to case; find on the list | **partial** Expect is recognised exactly as it should be, and the first Content-Length gives the length; two different lengths, text after the digits and negative numbers are accepted (code defects). Lengths from 2^63 (atoll overflow) are left out. |
| C194 | Mounted files over HTTP/2 | H2Site | composition with H2Trip, H2Body and Site; the header block decodes to the fields with content-length in its place | **partial** Full for files that have not changed since they were mounted and are sent encoded, or as they are with 1 to 4096 bytes. Refuted: an empty file never ends the stream, a longer one overruns a buffer on the stack, a stored form that the client does not accept breaks the framing (code defects). Left out as in C177: windows and frames that are too small. Negotiation: C195. |
| C195 | A client gets a form it takes, or 406 | Nego | composition of C27, C29, C74 with Site and H2Site; a chosen or matched coding stands in the list made from the field | **partial** Full for understandable fields on both protocols, except: a file kept in a refused coding is sent in it, `*` chooses gzip even if it is refused, identity is refused although it was not named, the media type, character set and language of the response are not compared (code defects, proved in general). Left out: weights before elements without weight, qualities below 0.01 (C27), refused requests with content (C115). |
| C196 | A refused request costs the client nothing else | Refuse | the marked recursion refines Keep; induction over the pieces of a line that is none; induction over the requests | **partial** Full for lines that are no request lines and for too much content (without Expect, see C50). Wrong fields: a weight of more than three decimals for a character set or language; some other wrong fields are taken as right (C27, C29, C74), and refused requests with content leave it to be read as a request (C115). |
| C197 | The access log agrees with what clients asked and read | Access | the recursion with the kept line refines Refuse; the first line found in the buffer is a prefix of what arrives (induction over the handler's calls); every response begins with the phrase of the status it is logged with | **partial** Full for every connection of Refuse (C196) whose entries are shorter than 297 bytes; longer entries are cut without line break (C106_long_entry_refuted). Each request arrives in one round of the event loop's reads, in any pieces. The order of writing entries of several connections is that of their events (C108 and following). |
| C198 | A refused HTTP/2 request costs no other request anything | H2Refuse | composition of C177, C195 and C100; induction over the requests with the entries of the client's table as invariant | **partial** Full for the requests described; what is malformed for the RFC but accepted by the server (C100), a :scheme without value (undefined, C101) and wrong fields taken as right (C27, C29, C74) are left out. Connection errors (malformed frames and header blocks) are C60-C66 and H2Stream. |
| C199 | From the frames a client sends to the responses it reads | H2Wire | composition of H2Frame, Hpack, H2Stream and H2Refuse; places of a buffer as cuts of the list of chunks; induction over the frames of the connection, with the requests under way and their streams as invariant | **partial** Frames of different requests may mix in any way, requests may be cancelled before they are complete (of those only the header block has to be correct); left out: padding (C64), CONTINUATION (C63), PING (C57), frames that end with the memory of the buffer, a window update over two chunks whose last byte is 128 or more (C07), responses that have to wait for the window (C59) and a second setting of the window (C56). The windows for a response are kept from the settings, the window updates and the responses before. |
| C200 | The access log agrees with what HTTP/2 clients asked for and read | H2Access | the recursion over frames with the entries beside the responses; every response begins with the phrase of the status it is logged with; induction over the frames as in C199 | **partial** Proved for requests without query that are short enough for the log (C106) from clients whose windows are open. Refuted for every request with a query (the line is cut by the length of the query) and for clients whose settings give no window (a response without content has been read whole, but nothing is logged). Fields that are no request, whose line depends on which of them were given, are left out. |
| C201 | All HTTP/2 clients see one order of requests | H2Serve | induction over the frames of all connections with C199's step on each connection as invariant; for C202 projection of the run to one connection | **partial** For clients that speak as in C199 (see what is left out there). Clients that do not may end the worker (C129). Not mixed with HTTP/1 connections (those are C189's worker). |
| C202 | HTTP/2 clients do not disturb each other | H2Serve | induction over the frames of all connections with C199's step on each connection as invariant; for C202 projection of the run to one connection | **partial** For every frame whatever, but only while the worker runs (a frame may end it, C129), and only for applications whose results do not depend on the state; with state the order of C201 shows. |
| C203 | An HTTP/2 connection that has ended stays ended, and no stream is answered twice | H2Any | the invariant of H2Stream does not depend on the windows and is carried over to the bytes; the streams answered so far as a further invariant; induction over the frames | **partial** The first half is proved from the bytes for every client. The second half is proved with responses that are sent before the next frame is read; with a response that waits it is false (Fly.H2S.C63_answered_twice_refuted). |
| C204 | A client that says goodbye still gets the answers to its requests | H2Loop | invariants over all schedules; a measure for progress | **partial** True only of clients without complete requests under way. Otherwise refuted, in every schedule: nothing is sent any more; the response is lost, freed memory is read, or the handler runs twice. |
| C205 | What is received of an HTTP/2 response that breaks off is a beginning of it | H2Trip | composition of the area theorems; induction over the exchanges with the entries of the client's table as invariant | **partial** Two runs of the same response are compared: one with any write results (pieces, interruptions and failures in the header frames and in the header of the DATA frame; pieces and blocking in the content), one in which everything is taken. What the first sends is a beginning of what the second sends. Missing: blocking within a frame of the header or the header of the DATA frame (then bytes are repeated: the refutations of C16), failures while the content is written, header blocks of more than 1000 bytes (they are lost: C66). |
| C206 | Padding of HTTP/2 frames has no meaning | H2Wire | composition of H2Frame, Hpack, H2Stream and H2Refuse; places of a buffer as cuts of the list of chunks; induction over the frames of the connection, with the requests under way and their streams as invariant | **partial** Stated from the bytes of the frame to the fields and content of the request. Frames that are marked as padded with padding of length 0 are read correctly. Refuted for every other padding of DATA (it becomes content) and for padding of HEADERS by a multiple of three zeros (each three become a field with an empty name). Missing: padded header blocks over several chunks, paddings of HEADERS of other lengths. |
| C207 | The frames of an HTTP/2 client do not depend on how its bytes arrive | H2Feed | the header is read by the functions of H2Frame (C07); a beginning of a stream of frames is complete frames and less than the next; induction over the turns of the loop and the reads; the number of frames that begin responses bounds the events needed | **partial** The buffer may lie in any pieces of memory; reads may be empty (events with which nothing arrives); any frames may begin responses, after which the loop stops with bytes in the buffer. While a frame is handled its bytes lie at the place handed on, which links the bytes of any reads to the requests and responses of C199. Missing: buffers whose memory ends with the last byte, frames that end the connection (C124, C203), the events themselves (C124). |
| C208 | HTTP/2 frames go through the connection buffer unchanged, from the connection preface on | H2Buf | every buffer between events is well formed and has room; at each turn it is one of the layouts of H2Feed, whose turn lemmas apply; release keeps the room, refresh finds one chunk; a full buffer holds more than all chunks but one; induction over turns and events | **partial** Refuted as well: a client may send requests as fast as it likes; with every event one request at most is taken and a whole chunk is read, so enough requests at once run the buffer out of room and fail the connection. The receiving loop of C207 on the chunked buffer of C05 itself, from fly_buffer_init and the connection preface on, linked to the requests and responses of C199 at the places where the frames lie. Refuted: a frame the server allows is never handled if the buffer is not larger than the frame with its header, which the sizing of the buffer permits. Refuted too: a preface in pieces is refused with all frames behind it. Missing: overflow while frames pile up behind one that begins a response, frames that end the connection (C124, C203). |
| C209 | The control frames of an HTTP/2 connection that ends are released once | H2Close | the list of frames to be acknowledged is those sent since the last acknowledgement followed by those waiting, in order; induction over the history and over the two loops | **partial** Proved for every history in which no acknowledgement overtakes a frame (C150), if no SETTINGS frame of the server is waiting or none has been sent since the last acknowledgement. Refuted in exactly the other case: a waiting SETTINGS frame is released as one to be sent and found again among those to be acknowledged; a client that keeps to the protocol can do this. Refuted as well right after an acknowledgement that overtakes a frame. Not covered: frames of streams other than the root stream. |
| C210 | The credit for received DATA reaches the client as it was granted | H2Credit | the combining loop keeps the sum of what waits (as in C14); whole frames leave the queue in order; induction over the history; the refutations compute the bytes for all credits | **partial** Proved for every history in which the socket never stops inside a frame. Refuted otherwise: a WINDOW_UPDATE whose header has gone out is taken back and combined with the next one, so that the client reads the header of the next frame as the increment, 1032 bytes whatever was credited. Refuted too without a further credit: what has gone out of the header or of the payload goes out again. Not covered: other frames between the WINDOW_UPDATEs. |

## Properties the code violates

Each entry is a theorem about the model of the code as it is; the claim of the property fails for all the inputs the theorem quantifies over.

* `Fly.RB.C03_duplicate_insert_dangling_refuted` — Inserting a key that is already present leaves the caller's handle variable pointing at the freed new node. After every valid history and every insertion of a live key with an owner variable the variable is non-NULL, no node of the tree is at that address, and deleting through it is undefined behaviour.
* `Fly.Buffer.C05_stray_cr_hides_line_end_refuted` — Why C05_request_line_split asks for a CR-free line: a stray CR before the CRLF hides the line end. In every reachable state whose data is a line, CR, CR, LF and anything without a further CR (as long as the memory behind the received bytes holds no CR either) no line is found, so the request is never answered.
* `Fly.Buffer.C05_search_reads_unreceived_memory_refuted` — Unreceived memory is searched as well. In every reachable state in which no CR has been received but the memory behind the received bytes still holds an old line end, a request line is "found" that is made of the received bytes and of that memory: the peer never sent it.
* `Fly.Buffer.C05_two_initial_chunks_lose_data_refuted` — With more than one initial chunk the received data is not where readers look: `recv` fills the last chunk while readers start at the first. Whatever is received, the first bytes read are those the allocator left in the first chunk.
* `Fly.Buffer.C06_release_all_of_full_buffer_crashes_refuted` — Consuming everything in a buffer filled to the brim dereferences NULL (the `okOp` exception), in every reachable state without room, whatever the sizes and the history.
* `Fly.H2.C07_reserved_bit_misread_refuted` — REFUTED part: the reserved bit is taken from the wrong bit of byte 5. For every header and every split over chunks the reported value is bit 24 of the stream id, whatever the reserved bit is.
* `Fly.H2.C07_read31_chunk_crossing_refuted` — REFUTED part: whenever the four bytes reach the end of a chunk the reader clears the top bit of the last byte instead of the first. For every value and split the number read is exactly this; so it is wrong for every value with bit 7 set, and for every set reserved bit.
* `Fly.Hpack.C08_encode_128_wrong_refuted` — REFUTED: an integer that does not fit the seven-bit prefix (the length of a string of 127 bytes or more) is read back as another: whatever follows, a reader that uses a seven-bit prefix takes `i % 128` from the first byte alone, unless `i % 128 = 127`; and when `i % 256 ≥ 128` the Huffman bit is set.
* `Fly.Hpack.C08_large_integer_undefined_refuted` — (large integers): an integer with five continuation bytes of which the last has a value of 8 or more, so every integer from 2^31 + 2^n - 1 on, is undefined behaviour (overflow of a signed number), with any prefix width and whatever follows.
* `Fly.Hpack.C11_carriage_return_aborts_refuted` — REFUTED: every Huffman coded string that contains the byte 13 aborts the process (no table entry matches), whatever precedes and follows it and however it lies over the chunks.
* `Fly.Hpack.C11_bad_padding_reads_beyond_refuted` — REFUTED: a string whose padding is not all ones is a decoding error (RFC 7541 §5.2), but is not rejected: the decoder goes on into the bytes behind the string. For every coded string `s` without the byte 13 and every such padding, whatever comes back has symbols after `s` that nobody sent (if it comes back at all: no match behind the string is an abort).
* `Fly.H2S.C12_priority_opens_stream_refuted` — On every live connection: a PRIORITY frame for an idle stream opens it, and a stream with a lower number can no longer be opened: its HEADERS frame ends the connection.
* `Fly.H2S.C13_unlimited_streams_refuted` — For every `n` a client can open `n` streams and reset every one of them: all `n` are still there, with their requests, on a connection that is still served. (`max_concurrent_streams` is never set and a reset stream is never removed.)
* `Fly.Send.C15_window_exceeded_refuted` — A response at least as long as an open window goes out all the same, in one frame larger than the window if it is longer, and without END_STREAM: no later frame ends the stream.
* `Fly.Send.C15_frame_size_exceeded_refuted` — The peer's maximum frame size is not consulted: for every maximum there is a response inside both windows sent as one larger frame.
* `Fly.Send.C15_empty_body_never_ended_refuted` — A response with an empty body is neither given a DATA frame nor a HEADERS frame with END_STREAM (that is only set for responses without content).
* `Fly.Send.C16_h2_frame_resent_refuted` — Whatever the frame: if its payload is cut after `n` bytes by blocking, those bytes are sent a second time.
* `Fly.Send.C16_h1_partial_write_refuted` — Whatever the response: if the first call takes `n` bytes and the second the rest, the peer receives the first bytes twice and never the end; the sender reports success.
* `Fly.Send.C16_h1_blocked_write_refuted` — The same happens when the connection blocks after `n` bytes: they are sent again.
* `Fly.Send.C16_h2_data_header_resent_refuted` — Over plain TCP a partly written DATA frame header is started again.
* `Fly.Response.C17_header_injection_refuted` — Nothing stops a header value from containing CRLF: the client then reads an additional header, for every name and value.
* `Fly.Response.C18_identity_file_crashes_refuted` — A client that only accepts `identity` crashes the worker by asking for any static file at least as long as the encoding threshold (NULL body).
* `Fly.Response.C18_unaccepted_encoding_sent_refuted` — If the stored encoding of a file is not accepted and no coding was chosen, the encoded bytes are sent all the same, with their length as Content-Length but with the length of the plain file as the number of bytes sent: the connection carries uninitialised memory after the body.
* `Fly.Response.C19_wrong_reason_refuted` — 410 is sent as "Length Required", 411 as `-1 (null)` (and number 411 is refused), 505 with a misspelt phrase.
* `Fly.Header.C20_case_variant_duplicated_refuted` — Header names are case-insensitive for a client; the conditional add is not, so a handler's `date` header is joined by a second `Date`.
* `Fly.Header.C20_empty_name_crashes_refuted` — A header with an empty name is stored as a NULL pointer: the next search by name is undefined, whatever else is in the list.
* `Fly.Header.C20_remove_present_header_undefined_refuted` — Removing a header that is present reads freed memory.
* `Fly.Req.C21_leading_percent_of_query_cut_refuted` — C21 fails for every query that begins with a percent-encoded byte: its "%" and first digit are lost.
* `Fly.Req.C21_connect_target_is_lost_refuted` — CONNECT: the authority is accepted only with user information, and never reported: the path is empty.
* `Fly.Req.C21_connect_host_port_refused_refuted` — A CONNECT request in the RFC 7231 form `host:port`, without user information, is answered 400.
* `Fly.Req.C21_absolute_and_asterisk_form_refused_refuted` — Every target that does not begin with "/" is refused for every other method: absolute-form (`GET http://host/`) and asterisk-form (`OPTIONS *`), which RFC 7230 5.3 requires servers to accept.
* `Fly.Req.C22_spaces_and_protocol_name_refuted` — The server takes request lines with any number of spaces, and with the protocol name missing or repeated, as valid.
* `Fly.Req.C23_endless_line_gets_no_414_refuted` — A request line that never ends is not answered 414 however long it is: as long as no CR is in the buffer the server waits for more.
* `Fly.ReqEvent.C23_414_answer_crashes_refuted` — A request line of 8000 bytes or more ends the worker process instead of being answered 414, whatever it says and however it arrives (C23).
* `Fly.Route.C24_method_ignored_refuted` — : a route with a parameter is found for every method, not only the one it was registered for.
* `Fly.Route.C24_inner_parameter_never_found_refuted` — : a route with a parameter before its last segment is never found, unless the request contains a closing brace.
* `Fly.Route.C24_bytes_behind_path_refuted` — : whether a route is found can depend on bytes behind the request path.
* `Fly.Route.C25_bool_is_float_refuted` — : a parameter of type `bool` is registered as a `float`.
* `Fly.Route.C25_only_first_parameter_refuted` — : of several parameters in the last segment only the first gets a value, and the text of the route behind it is not compared.
* `Fly.Route.C25_type_suffix_accepted_refuted` — What a written parameter may be followed by inside its braces: anything behind the name of its type.
* `Fly.Req.C26_http2_method_prefix_refuted` — For HTTP/2 the `:method` value needs only to begin with a method name.
* `Fly.Req.C26_alpn_prefix_refuted` — The ALPN name "h" (a proper prefix of "h2" and of "http/1.1") selects HTTP/2, and a name that continues "h2" behind a NUL is compared with memory behind the table entry.
* `Fly.Encode.C27_asterisk_selects_refused_refuted` — : `*` selects gzip even if gzip is refused: whenever every named coding but `*` has quality zero.
* `Fly.Encode.C27_weight_carried_over_refuted` — : an element without weight gets the weight of the element before it, so an accepted coding is taken for refused.
* `Fly.Encode.C27_small_quality_refused_refuted` — : a quality between 0.001 and 0.009 is taken for zero, and 406 is sent although identity was not refused.
* `Fly.Encode.C27_refused_precoded_sent_refuted` — : content encoded in advance is sent whenever its coding is named, even if it is refused.
* `Fly.Encode.C28_gzip_first_wins_refuted` — : a first element `gzip` with any quality of at least 0.01 wins, whatever the qualities of the others.
* `Fly.Mime.C29_quality_one_refuted` — refuted: a weight of one (`1`, `1.0`, `1.00`, `1.000`) is answered with 400, behind every well-formed range and whatever follows.
* `Fly.Mime.C29_quality_zero_refuted` — refuted: a weight `0` without decimals, and a weight `0.` (both are valid), is answered with 400.
* `Fly.Mime.C29_blank_refuted` — refuted: a blank behind a range without weight (in front of a comma, of a semicolon or at the end) is answered with 400, whatever follows.
* `Fly.Mime.C29_parameter_swallows_refuted` — refuted: a range with parameters but without weight swallows the range behind it; the application is told a parameter whose value contains it.
* `Fly.Mime.C29_parameter_comma_blank_refuted` — refuted: a range with parameters but without weight, followed by a comma and a blank, is answered with 400 whatever follows.
* `Fly.Mime.C29_quoted_value_lost_refuted` — refuted: the value of a quoted parameter is lost; the application is told an empty one.
* `Fly.Mime.C29_quoted_comma_refuted` — refuted: a quoted parameter followed by a comma is answered with 400.
* `Fly.Mime.C29_small_weight_refuted` — refuted: a client that accepts a type with a weight of 0.001 to 0.009, and nothing else, is answered with 406.
* `Fly.Lang.C30_long_name_refuted` — refuted: every name at least as long as the name field makes the server write a zero byte behind it.
* `Fly.Mount.C31_directory_refuted` — for directories: if directory `d` and the index file below it are mounted, a request for `d` is answered with the directory's own entry, not with the index file; and with a query the same request finds nothing (unless a file has the query in its name).
* `Fly.Mount.C31_equal_names_refuted` — for equal names: a second mount point brings a file with the same relative path as a mounted one; when the second file is removed, the first — still mounted — is not served any more.
* `Fly.Mount.C31_third_file_lost_refuted` — once more: when two files with the same relative path disappear one after the other, a third file with another name stops being served, although it is still mounted.
* `Fly.Mount.C32_watched_name_refuted` — where the master registers a file that was created in or moved to a mount point: it passes the padded length of the event, so a name compares as "bigger" than itself unless its length happens to leave the remainder 15 modulo 16.
* `Fly.Mount.C33_nested_refuted` — : when a directory below another directory disappears, the master never gets out of the removal.
* `Fly.Mount.C33_sibling_refuted` — : a file beside the directory whose name begins with the directory's name is removed with it, although it is not below it.
* `Fly.Mount.C33_subdirectory_refuted` — : a top-level directory with a subdirectory is never removed either (the master loops for ever or gives up; siblings that are directories are excluded here only to keep the statement short).
* `Fly.Cache.C34_http1_never_304_refuted` — : whatever bytes a client sends as its header, the file is sent in full; in particular when the client's copy is current.
* `Fly.Cache.C34_lower_case_refuted` — Field names in lower case, which is how HTTP/2 transmits them and how the HTTP/1 parser stores them, are never recognised: no such request is answered with 304, whatever validators it carries.
* `Fly.Cache.C34_any_date_refuted` — Where `If-Modified-Since` is recognised, every date that can be read gives 304, also one before the last modification.
* `Fly.Cache.C34_empty_value_refuted` — An `If-None-Match` field with an empty value makes the server read a null pointer.
* `Fly.Cache.C35_collisions_refuted` — Every digest with a byte of 128 or more (all but one in 65536) shares its tag with a different digest.
* `Fly.Cache.C35_source_refuted` — In general it does not: there is nothing between the three parts.
* `Fly.Event.C37_same_second_refuted` — refuted: after any history every timer whose deadline is still to come in the current second is marked.
* `Fly.Event.C37_extended_still_closed_refuted` — refuted: an HTTP/2 connection that is marked in the turn in which it receives a frame keeps the mark although its deadline moves, and the next turn without ready events closes it however far its deadline is.
* `Fly.Event.C38_far_deadline_spins_refuted` — refuted: if the first deadline is 25 to 49 days away the loop does not wait at all (it spins).
* `Fly.Event.C40_after_2038_refuted` — refuted: every time from 2038 on compares as earlier than every time before, or the comparison is undefined.
* `Fly.Conf.C41_last_line_refuted` — A last line without a line feed is refused, although it is a correct line.
* `Fly.Conf.C41_last_blank_refuted` — A last line without a line feed whose value is followed by a blank makes the parser read and write outside its line buffer.
* `Fly.Conf.C41_long_line_refuted` — The same for a line in the middle of a file that is longer than the buffer.
* `Fly.Conf.C41_long_comment_refuted` — The rest of a comment line after its first 1023 bytes is read as a line of its own: the result is that of the file with only that rest.
* `Fly.Conf.C41_trailing_text_refuted` — Text after the value and a blank is ignored: the line is not refused but means the same as without it.
* `Fly.Conf.C41_lax_number_refuted` — A number followed by other value characters is not refused: the item is set and the server uses the digits in front.
* `Fly.Conf.C41_exit_refuted` — A value for a number item that starts with a letter ends the whole process, with the exit status of success.
* `Fly.Conf.C41_half_applied_refuted` — A refused file has already changed the items of the lines in front of the bad line.
* `Fly.Master.C43_stopped_refuted` — is false when workers are stopped (SIGSTOP, a debugger, a terminal): each stopped worker is taken for one that ended and is replaced, and is still there, stopped or continued (unless the SIGCONT ends it, C154). There is no bound on the number of worker processes.
* `Fly.Master.C43_two_ends_refuted` — is false when two workers end before the master reads its signals: only one SIGCHLD is pending at a time, and the master waits only for the worker it names. The other one is never replaced: after any further ends there are fewer workers than configured, for ever.
* `Fly.Master.C43_early_end_refuted` — is false for a worker that ends before the master has set up its signals: setting them up throws the notification away, and the worker is never replaced.
* `Fly.Master.C43_status_refuted` — is false for a worker that ends with a status of its own, such as 1 when it cannot be set up: the master aborts, and nothing replaces workers any more. Statuses 10 and 11 end the server in an orderly way.
* `Fly.PyArgs.C46_expire_refuted` — A lifetime of 0, which tells the browser to forget the cookie, is never written: for every cookie the header is the same as without a lifetime, a cookie kept until the browser ends. Empty domains and paths are dropped too.
* `Fly.PyArgs.C46_injection_refuted` — Nothing is escaped: for every cookie, a value that ends in `"; HttpOnly"` is the same header as the attribute, and a value that ends in `"; Domain=d"` sets the domain.
* `Fly.PyArgs.C47_capital_refuted` — A parameter whose name contains a capital letter is never bound: for every request, whatever path, query, cookies and headers it has, the call fails.
* `Fly.PyArgs.C47_shadow_refuted` — A parameter named like an entry of the request (`uri`, `host`, `port`, `query`, `body`, …) gets that entry even when the path has a parameter of that name.
* `Fly.PyArgs.C47_valueless_refuted` — An entry without a value hides the ones behind it: for every parameter and value, the query `p&p=value` of a request without other parts does not bind `p`.
* `Fly.PyArgs.C47_kwargs_refuted` — A function with `**kwargs` can never be called, for any request and any parameters.
* `Fly.PyArgs.C48_equals_refuted` — A value that contains an equals sign as itself, which is allowed in a query, is cut there: for every name, beginning and rest of the value.
* `Fly.PyArgs.C48_plus_refuted` — The space a browser's form writes as `+` stays a plus sign: every text without percent signs is handed on unchanged.
* `Fly.PyRoute.C49_second_method_refuted` — When a path has several methods, only the first one gets the CORS headers: for every history and configuration, a route with an earlier route of the same path (both not `OPTIONS`) is left as it was, and its responses carry no CORS header at all.
* `Fly.ReqEvent.C50_after_100_undefined_refuted` — After 100 the server removes the Expect field to go on reading the body, which is undefined behaviour whenever the field is there (`fly_remove_header_chain` walks on from the element it has just released).
* `Fly.ReqEvent.C50_no_answer_before_whole_body_refuted` — A request line and header block whose announced body length is too large, arriving in one piece, is not answered before the whole announced length has come, however the bytes then arrive. For a negative length (which becomes a number from 2^63 up) that is never.
* `Fly.Req.C52_token_class_refuted` — The token class (methods, header field names) is not that of RFC 7230: every delimiter but ";" is taken as a token character too.
* `Fly.Link.C54_pop_empty_refuted` — refuted for an empty queue: pop takes the head itself and the count becomes negative.
* `Fly.Link.C54_remove_twice_refuted` — refuted for an element removed twice: the elements stay, but the count is one too small.
* `Fly.Buffer.C55_split_preface_refused_refuted` — A preface that arrives in pieces is refused instead of awaited: the byte after the received ones is compared before the "not received yet" test. In every reachable state whose data is a proper prefix of the preface, the connection is refused as soon as the first byte of memory behind the received ones differs from the preface byte still to come.
* `Fly.H2.C56_small_header_list_size_refused_refuted` — REFUTED: every legal MAX_HEADER_LIST_SIZE below 16384 or from 16777216 on is treated as a connection error, whatever the settings before.
* `Fly.H2.C56_zero_frame_size_accepted_refuted` — REFUTED: every illegal MAX_FRAME_SIZE is accepted: below 16384 as it is (with 0 the server would send empty frames), above 16777215 as 16777215.
* `Fly.H2.C56_second_initial_window_wrong_refuted` — REFUTED: after a first INITIAL_WINDOW_SIZE `a` that differs from the window in use, no later one `b` is what the peer said: the difference is taken off.
* `Fly.H2.C57_ping_reply_is_goaway_refuted` — REFUTED: no reply is ever a PING with the ACK flag (§6.7); it is a GOAWAY whose last-stream-id and error code are the opaque data.
* `Fly.H2.C59_only_last_setting_sent_refuted` — REFUTED for every list of two or more settings: only the last one is written, at the front; the remaining bytes of the payload are whatever the memory held.
* `Fly.Hpack.C60_static_16_wrong_refuted` — REFUTED: `accept-encoding: gzip, deflate` sent as the indexed field 16 arrives without its value, in every block, whatever stands before and after it.
* `Fly.Hpack.C60_static_41_wrong_refuted` — REFUTED: `if-none-match` sent with the static name index 41 arrives as `if-none-matcho`, at the end of every block, whatever its value and kind.
* `Fly.Hpack.C60_never_indexed_name_misparsed_refuted` — REFUTED: a never-indexed literal with a new name (the kind meant for secrets): in every block, its name becomes the value of a header without name, and its value is parsed as further fields. So if the block is accepted at all, that anonymous header is among the request's headers.
* `Fly.Hpack.C60_bad_index_accepted_refuted` — REFUTED: a reference to an entry that does not exist (0, or beyond the dynamic table as it then stands) is a decoding error in the RFC; the server adds a header without name and goes on, in every block.
* `Fly.Hpack.C60_size_update_refused_refuted` — REFUTED: a dynamic table size update (RFC 7541 §6.3) is refused, to whatever size and wherever it stands in a block; at the start of a block (`rs = []`) it is legal.
* `Fly.Hpack.C60_literal_across_chunks_refuted` — REFUTED: every new name (without Huffman coding) that begins in one chunk and ends in the next is copied from beyond the first chunk's memory, whatever the table, the headers so far and the rest.
* `Fly.Hpack.C61_prefix_name_changed_refuted` — REFUTED: a response header whose name merely begins with a name of the static table (one listed without value: `age`, `host`, `link`, `from`, `date`, `via` ...) reaches the client under a shorter name, whatever its value, the client's table, and the table of the connection.
* `Fly.Hpack.C61_prefix_value_changed_refuted` — REFUTED: a value that merely begins with a value the static table lists under the header's name is replaced by it. For every header that is not itself a static entry and whose name is only listed with values (`:path`, `:method`, `:status`, `:scheme` ...), some of them a prefix of its value, the client receives another header.
* `Fly.Hpack.C61_wrong_table_consulted_refuted` — REFUTED: the encoder consults the table of what the CLIENT inserted for its own requests. Whenever a response header (no static match) equals an entry the client inserted there, the response refers to it by number, which the client's decoder looks up in the other table: unless that one happens to hold the same header at the same place, the client gets another header or a decoding error.
* `Fly.H2S.C62_late_window_update_ends_connection_refuted` — On every live connection: a WINDOW_UPDATE for a stream whose response has been finished ends the connection, although clients may legally send it.
* `Fly.H2S.C63_answered_twice_refuted` — On every live connection: a request that is complete with its HEADERS frame is answered twice if the client then sends an END_STREAM DATA frame on that stream: the stream is reset and the request runs again.
* `Fly.H2S.C63_continuation_never_answered_refuted` — On every history: a CONTINUATION frame that ends a header block ends the connection, and answers nothing: header blocks split over CONTINUATION frames are never served.
* `Fly.H2S.C63_data_on_stream_zero_crashes_refuted` — DATA on stream 0 makes the server read the header list of a stream that has none: undefined behaviour, for every connection state that still reads.
* `Fly.H2S.C64_padding_enters_body_refuted` — On every live connection: the padding of a DATA frame becomes part of the body. A request that announces the length of data and padding together is answered with both; one that announces its data's length (and pads) is not answered: the connection ends.
* `Fly.H2S.C64_body_without_length_refuted` — On every live connection: a body on a request without Content-Length (or with the length 0) ends the connection, although HTTP/2 does not require the header.
* `Fly.H2S.C64_short_body_uninitialised_refuted` — On every live connection: a body shorter than its Content-Length is answered with a buffer of the announced length whose tail was never written.
* `Fly.H2S.C65_padding_not_credited_refuted` — On every live connection: the pad length byte of a padded frame is never credited, so the client's window shrinks with every such frame and the connection lives on.
* `Fly.H2S.C65_zero_increment_errors_swapped_refuted` — On every live connection: a zero increment on stream 0 is answered by RST_STREAM on stream 0 (and the connection lives on), and on a stream just opened by GOAWAY: the two errors are swapped.
* `Fly.Send.C66_long_field_refuted` — A single field longer than the peer's maximum makes an oversized frame (after an empty HEADERS frame).
* `Fly.Send.C66_block_over_1000_bytes_lost_refuted` — The block is assembled in a buffer of 100 chunks of 10 bytes (src/v2.c:3197-3199) and the buffer's refusals are not looked at (src/v2.c:2338, 2369, 2391): no history of buffer operations leaves a header block of more than 1000 bytes in it, far below the frame size at which a block would be split.
* `Fly.Header.C67_request_close_ignored_refuted` — The decision after a response (src/response.c:494-507) looks at the response only. A request's `Connection: close` is stored under the lower-case name and never consulted: for every request header list the server's own responses other than 413 keep the connection open.
* `Fly.Req.C68_http2_percent_refused_refuted` — Every HTTP/2 request whose `:path` contains a percent-encoded byte, in the path or in the query, is refused: the three bytes are counted as one, so the parser runs onto the terminator.
* `Fly.Req.C68_http2_empty_query_refuted` — With an empty query the "?" stays in the path, so the route or file is not found; a space ends the parse but it and everything behind it stay in the path as well, whatever the path.
* `Fly.ReqHeader.C69_no_blank_after_colon_refuted` — A field without a blank behind the colon, which RFC 7230 allows, is dropped silently, whatever its name and value.
* `Fly.ReqHeader.C69_obs_text_dropped_refuted` — A field whose value contains a byte from 128 up (obs-text, UTF-8) is dropped silently.
* `Fly.ReqHeader.C69_trailing_blank_kept_refuted` — Trailing blanks stay part of the value (RFC 7230 excludes them), so `Connection: close ` is not `close`.
* `Fly.ReqHeader.C69_bare_lf_eats_body_byte_refuted` — A header block ended by a bare LF loses the first byte of the body.
* `Fly.ReqHeader.C69_nul_never_answered_refuted` — A NUL byte in a field name makes the server wait for more bytes forever, though the header is complete.
* `Fly.ReqHeader.C69_name_across_chunks_refuted` — A field name that continues in the next buffer chunk is read from the memory behind its first chunk.
* `Fly.ReqHeader.C70_malformed_lines_ignored_refuted` — No malformed line is ever refused: every line that is neither a field nor the end of the header is skipped, so a header block never gives 400.
* `Fly.ReqEvent.C71_http2_version_crashes_refuted` — A request line with version HTTP/2 (on an HTTP/1 connection) ends the worker process unless an application function takes the request.
* `Fly.ReqEvent.C71_headerless_in_two_pieces_refuted` — A request without header fields is never answered if the empty line arrives after the request line, whatever the request line.
* `Fly.ReqEvent.C71_half_close_unanswered_refuted` — A client that closes its sending side right after the body gets no answer if the body comes in a piece of its own, for every well-formed request with a body within the limit.
* `Fly.Route.C72_allow_prefix_refuted` — : methods of a route for a shorter path are listed as well.
* `Fly.Route.C72_allow_get_and_parameters_refuted` — : GET is listed whether or not it is registered, and the method of a route with a parameter is not listed for the paths that route serves (paths without braces).
* `Fly.Encode.C73_name_overflow_refuted` — : a name of exactly 20 characters makes the parser write behind its name buffer.
* `Fly.Encode.C73_quality_overflow_refuted` — : a quality of six or more zeros makes it write behind the buffer for the quality.
* `Fly.Encode.C73_blank_before_comma_rejected_refuted` — : a blank between a coding and the comma behind it, which the syntax of the field allows, makes the whole field a syntax error.
* `Fly.Lang.C74_blank_before_comma_refuted` — refuted: a blank in front of a comma, which the syntax of lists allows (RFC 9110, 5.6.1), is answered with 400, behind every element and whatever follows.
* `Fly.Lang.C74_charset_tab_refuted` — refuted: a tab in front of a weight is answered with 400 for Accept-Charset.
* `Fly.Mime.C75_extension_crashes_refuted` — refuted: a weight followed by an extension (valid in RFC 7231) whose semicolon is followed by no blank crashes the server: it copies the name of the extension from a null pointer.
* `Fly.Mime.C75_long_subtype_overflows_refuted` — refuted: a subtype of more than 30 characters is written past the end of its field.
* `Fly.Event.C76_busy_loop_starves_refuted` — refuted: as long as in every turn some event is ready, no expired handler is ever called, however long deadlines have passed.
* `Fly.Event.C37_extended_still_closed_refuted` — refuted: an HTTP/2 connection that is marked in the turn in which it receives a frame keeps the mark although its deadline moves, and the next turn without ready events closes it however far its deadline is.
* `Fly.Cache.C77_old_file_refuted` — A file whose modification or change time is 1970-01-01 00:00:00 or before gets none: mounting its directory fails.
* `Fly.Scan.C78_long_name_refuted` — : a file whose name has 255 bytes — which file systems allow — is left out.
* `Fly.Scan.C79_limit_refuted` — : a single directory is mounted completely, however many files it has and however low the limit is.
* `Fly.Scan.C80_dangling_link_refuted` — : one dangling symbolic link (or unreadable directory) anywhere below the mount point — such as editors leave as lock files — and no change notice is ever handled successfully: the worker gives up with the emergency status, which ends the whole server.
* `Fly.Scan.C80_unreadable_file_refuted` — : a new file that cannot be opened has the same effect.
* `Fly.Scan.C80_replaced_directory_refuted` — : when a directory is replaced by a regular file, the files that were below it are kept and served as before.
* `Fly.Scan.C80_name_elsewhere_refuted` — : a new file whose relative path a file of another mount point has is not registered.
* `Fly.Scan.C80_long_path_refuted` — : a new file whose relative path has 255 bytes or more, all its components being short, gets a name with left-over bytes of memory behind it and is not registered under its path.
* `Fly.Scan.C81_stale_refuted` — : however often a file changes and the worker is told, its responses announce the length and the date of mounting and send from the inode opened then, while the tag is that of the latest version whose times differ from those of mounting.
* `Fly.Scan.C81_same_second_refuted` — once more: a change that falls into the second of mounting (`st_mtime` has whole seconds) is not noticed at all.
* `Fly.Master.C82_save_refuted` — is false for the change people make: saving the file in place aborts the master, with or without debug mode, since the event that is asked for is not one that is expected.
* `Fly.Master.C82_production_refuted` — is false without debug mode: there too the application is loaded again, because the flag is kept and never looked at.
* `Fly.Master.C83_stopped_refuted` — is false once a worker was stopped and continued: it runs and serves, but is not told to end. (This is for a worker that has not set up its signals yet; once it has, the SIGCONT it reads ends it, see C154.)
* `Fly.PyRoute.C84_exit_refuted` — `SystemExit`, `KeyboardInterrupt` and the like never become a response: the handler's own clean-up raises (it uses a variable that was never set), for every route.
* `Fly.PyRoute.C84_type_refuted` — Outside debug mode a result of an unexpected type (an `int`, a `dict`) of any route with default headers makes the clean-up raise too.
* `Fly.PyRoute.C85_origin_refuted` — A CORS configuration that is *not* for debugging only loses its main header in production: for every history (without `only_debug` routes) and every such configuration, no route of the started application has `Access-Control-Allow-Origin` among its default headers, so no browser accepts a cross-origin answer.
* `Fly.PyRoute.C85_debug_only_refuted` — A configuration for debugging only is not taken back in production: for every history of routes of different paths (none of them `OPTIONS` or for debugging), the `OPTIONS` routes of every second path are still served, so with two paths or more at least one is.
* `Fly.PyRoute.C87_switch_refuted` — `fly --production` does not keep tracebacks from clients: an application created in the default mode registers its routes before the switch is applied, and for every such application, configuration, served route (other than a generated `OPTIONS` route) and exception, the answer in production consists of the traceback.
* `Fly.PyRoute.C88_constructor_refuted` — Headers given to the constructor of a response are never sent: for every list of them the answer is the same as without.
* `Fly.PyArgs.C89_equals_refuted` — No cookie value the application ever sees contains an equals sign, whatever the headers: values with padding (`YWJj==`) or with inner `name=value` texts are cut.
* `Fly.PyArgs.C90_special_refuted` — Because the whole body is decoded before it is taken apart, no form can deliver a value containing `&` or `=`, however it is encoded: for every body, no value the application sees has one.
* `Fly.PyArgs.C90_type_refuted` — Content types are compared letter by letter: every content type that begins with a capital (`Application/json`) or has a space before its parameters is refused as unsupported.
* `Fly.PyArgs.C91_bool_refuted` — A `bool` parameter is true whatever the path says: for every request, parameter and non-empty segment (`false`, `0`, `no`) the handler gets `True`.
* `Fly.Cli.C92_last_line_refuted` — When the file does not end with a line feed, the first option is glued to the file's last line: for every file ending in `n=v` with a numeric item and every single option `k`, reading succeeds, and the option has no effect: `k` keeps the file's value or default.
* `Fly.Cli.C92_space_refuted` — A path with a space in it is cut there: for every text item with an option, the value in force is the part before the space.
* `Fly.Cli.C93_refuted` — Without `-c` the application's own configuration file is never read: for every file and all options the configuration is the one without any file, so every item without an option has its default value.
* `Fly.PyBridge.C94_head_always_500_refuted` — A `Response` returned for a HEAD request is always replaced by a 500, whatever it contains; a text too.
* `Fly.PyBridge.C94_head_sends_bytes_refuted` — Bytes returned for a HEAD request are sent as for any other method, although the response to HEAD has no body.
* `Fly.PyBridge.C94_constructor_header_dropped_refuted` — Header fields given to the constructor of a response are dropped: the object is the same as without them.
* `Fly.PyBridge.C94_unknown_content_type_undefined_refuted` — Every content type outside the ten names of the table (so every one with a parameter, every image type, `application/octet-stream`) makes the search run past the end of the table, whatever the status, fields and body.
* `Fly.PyBridge.C94_unknown_status_refuted` — Every status number without a row in the table (206, 308, 411, 422, 429, 451, …) is received as `-1 (null)` over HTTP/1.1, and over HTTP/2 the length of a NULL text is taken.
* `Fly.PyBridge.C94_empty_field_name_undefined_refuted` — A field with an empty name makes the server compare a NULL pointer: undefined, for every value, status, type and body.
* `Fly.PyBridge.C94_empty_json_refuted` — An empty list or object is sent as an empty body, which is no JSON text, whatever its JSON form is.
* `Fly.PyBridge.C96_default_content_never_sent_refuted` — Content configured for a status is never sent over HTTP/1.1: the response to a handler that raises has an empty body and Content-Length 0, whatever is configured.
* `Fly.PyReq.C97_not_utf8_undefined_refuted` — A path, query or header field that is not UTF-8 is not refused: a NULL object is stored in the dictionary, which is undefined; for every such request whose path parameters are texts. (HTTP/2 fields may hold any bytes.)
* `Fly.Multipart.C98_empty_form_refuted` — A form without parts is not seen as an empty list: the handler receives the raw bytes, as for another content type.
* `Fly.Multipart.C98_nul_refuted` — A part whose content begins with a NUL byte (as many binary files do) arrives empty, and all parts after it are lost; for every content that goes on with anything but a line break.
* `Fly.Multipart.C98_field_name_refuted` — Names of header fields do not depend on the case of letters, but a part with any field whose name does not begin with exactly `Content-` (`content-disposition`, `X-…`) is lost with all parts after it.
* `Fly.Multipart.C98_other_parameters_refuted` — The boundary is taken to be everything behind the first `=` that follows a blank that follows the first semicolon. So with quotes, or with another parameter before or after, no part is seen: for every value of the form `multipart/form-data; k=w` and every body that ends with LF and does not contain `--w`, the handler receives the raw bytes.
* `Fly.Multipart.C98_no_blank_refuted` — Without a blank behind the semicolon (blanks are optional) no part is seen, whatever the body.
* `Fly.Multipart.C98_within_line_refuted` — The delimiter begins with a line break, but the server does not ask for it: a content with the boundary text in the middle of a line is cut there, two bytes before, and the parts after it are lost.
* `Fly.Multipart.C99_hyphen_at_end_refuted` — Every multipart body whose only hyphen is its last byte makes the server read behind it.
* `Fly.Multipart.C99_other_content_type_refuted` — The table of content types has no end mark: a request with a body and any content type that begins with none of its ten names, such as `application/x-www-form-urlencoded`, makes the server search behind the table, whatever the body.
* `Fly.Multipart.C99_truncated_refuted` — A body that ends with the header of a part makes the server read behind it.
* `Fly.Multipart.C99_cut_behind_boundary_refuted` — So does a body that ends with a boundary, or with the first byte of what follows it, after any text without the delimiter.
* `Fly.Multipart.C99_cut_name_refuted` — A body that ends within the first letters `Content-` of a part's header field, after any fields, makes the server read behind it.
* `Fly.H2R.C100_https_seen_as_http_refuted` — No handler is ever told that an HTTP/2 request came with the scheme `https`: if a request has a `:scheme` field at all, the scheme seen is `http`.
* `Fly.H2R.C100_second_path_wins_refuted` — RFC 9113 8.3: a request with a pseudo-header field twice, with an unknown one or with one behind regular fields is malformed. But behind any accepted request, a further field whose name is or begins with `:path` replaces the target: an intermediary that takes the first one and the server disagree.
* `Fly.H2R.C100_second_method_wins_refuted` — The same with the method.
* `Fly.H2R.C100_missing_scheme_accepted_refuted` — Every accepted request stays accepted when its `:scheme` fields are taken out.
* `Fly.H2R.C101_empty_scheme_refuted` — A literal `:scheme` with an empty value (a null pointer in the cell) makes the server follow a null pointer, on any connection and whatever follows.
* `Fly.H2R.C101_empty_accept_language_refuted` — So does a literal `accept-language` with an empty value behind any accepted request without other Accept fields.
* `Fly.H2R.C101_form_without_body_refuted` — A request that announces a multipart form but ends with its header makes the server follow the null pointer of the body that never came.
* `Fly.H2R.C101_coding_without_body_refuted` — So does one that announces a coding but has no body.
* `Fly.H2R.C101_nameless_field_refuted` — And one with a field without name behind its length.
* `Fly.H2R.C102_encoded_body_lost_refuted` — A body sent with a content coding over HTTP/2 never reaches the application: what it is given does not depend on the body sent.
* `Fly.H2R.C102_codings_refuted` — In particular deflate, brotli and identity bodies arrive empty, gzip bodies cost the connection, and codings the server does not know lead to undefined behaviour where 415 was due.
* `Fly.H2R.C102_http1_coding_ignored_refuted` — Over HTTP/1 the field is never found (names are stored in lower case, "Content-Encoding" is looked for), so an encoded body is handed over undecoded and an unsupported coding is not refused.
* `Fly.H2R.C103_directory_refuted` — GET of any mounted directory is 404 over HTTP/1, but over HTTP/2 the server sets about sending the directory like a file.
* `Fly.H2B.C104_file_over_tls_overruns_refuted` — Every file of more than 4096 bytes sent over TLS writes more than 4096 bytes to a buffer of 4096 bytes on the stack, at the first attempt to send.
* `Fly.H2B.C104_any_larger_file_overruns_refuted` — So for every client that asks over TLS, without content codings, for a mounted file of more than 4096 bytes.
* `Fly.H2B.C104_truncated_file_spins_refuted` — A file that lost its end after it was mounted makes the worker spin for ever, over every connection that takes what is there and one call more.
* `Fly.H2B.C104_grown_file_breaks_framing_refuted` — A file that grew after it was mounted is sent over TLS with more bytes than its DATA frame has: what follows the frame is no frame.
* `Fly.H2B.C104_default_content_spins_refuted` — The content configured for a status, not encoded, makes the worker spin for ever without TLS.
* `Fly.H2B.C104_default_content_cut_refuted` — Over TLS, of a default content between 4097 and 8192 bytes at most 4096 are sent.
* `Fly.H2B.C104_frame_length_refuted` — If the stored encoding of a file is not accepted and no coding applies, the DATA frame is announced with the length of the file, but the stored encoding is sent in it, with its own length as `content-length` and no `content-encoding`: the frames that follow are taken for the rest of the file.
* `Fly.H2B.C104_identity_file_undefined_refuted` — A file for which the coding `identity` was negotiated makes the worker follow a null pointer.
* `Fly.H2B.C105_client_ends_worker_refuted` — A client that closes its connection while a file is sent to it without TLS ends the worker process, with all its other connections, at whatever point of the transfer.
* `Fly.H2B.C105_signal_undefined_refuted` — A signal handled while encoded content is sent without TLS moves the position before the buffer.
* `Fly.Log.C106_long_entry_refuted` — for long entries (a request target of some 230 bytes is enough): the entry has no line break and ends with `...` and NUL, and the next entry is on the same line.
* `Fly.Log.C106_h2_query_cut_refuted` — for HTTP/2 requests with a query: of `?query HTTP/2` seven bytes are kept. Requests whose queries agree in their first six bytes are indistinguishable in the log, and the version is not shown.
* `Fly.Log.C106_h2_forged_entry_refuted` — for HTTP/2 requests whose target is refused: it is logged as received, so a client writes any line it likes into the log.
* `Fly.Log.C106_partial_write_refuted` — when the system writes an entry in two pieces (a nearly full disk, a signal): the second piece is the beginning of the entry again, and its end, with the line break, never arrives; success is reported.
* `Fly.Log.C107_old_log_overwritten_refuted` — The first error recorded after the server was started again is written over the beginning of the log of its predecessor: the position of the open file is 0 and is not moved to the end.
* `Fly.Log.C107_waits_for_ever_refuted` — A process that waits for the lock while another one writes a message with the functions of err.c waits for as long as that other process lives: the end of the file is unlocked, not the range that was locked.
* `Fly.Log.C108_error_value_refuted` — for one second of 1969 or 1970: there is no stamp, and no entry, because the value of `mktime` is the one that means an error.
* `Fly.Log.C108_minutes_refuted` — where the offset is not a number of whole hours (India, Nepal, Newfoundland, central Australia): the "minutes" are the remaining seconds of the hour, so they are 60 or more and the offset shown is not the zone's.
* `Fly.Log.C108_summer_time_refuted` — during summer time: the time shown is neither the time in UTC nor the local time, and the offset shown is that of winter.
* `Fly.Log.C108_not_local_time_refuted` — as a time stamp in the customary form, local time followed by its offset: wherever the offset is not zero, such a reading gives another instant.
* `Fly.Log.C109_unterminated_path_refuted` — for a path of exactly 4096 bytes: it is not refused but fills the buffer without its terminating NUL.
* `Fly.Log.C109_stderr_refuted` — with the option for standard error: nothing is written there; the entry is written to standard output, twice if both are asked for.
* `Fly.Log.C109_error_lost_refuted` — when no log directory is configured: a message that ends a worker reaches none of the terminals, although they are asked for.
* `Fly.Log.C110_emergency_line_cut_refuted` — for these: with a message of 130 bytes and a usual date the reason given by the system and the line break are lost.
* `Fly.Log.C110_formatted_emergency_refuted` — for emergencies raised with a format (all of `FLY_EMERGENCY_ERROR`, e.g. when memory is exhausted): whatever the message, the line is composed over the end of the message it quotes, which is undefined.
* `Fly.Conn.C111_name_of_255_hangs_refuted` — for a name of 255 bytes: if it is offered before HTTP/2, the worker searches for ever.
* `Fly.Conn.C111_long_name_overread_refuted` — for names of 128 to 254 bytes near the start of the list: the search goes on before the list, outside of its memory.
* `Fly.Conn.C112_handshake_broken_off_refuted` — for a client that closes the connection during the handshake (as the TLS library reports it up to version 1.1): the socket stays open and is polled with an event that was freed; the next report of it uses the freed memory.
* `Fly.Conn.C112_reset_before_request_refuted` — for a client that resets the connection before its first byte is read: the worker ends.
* `Fly.Conn.C112_reset_in_request_refuted` — for a client without TLS that resets the connection while it sends a request, at any time, also after any number of requests: the worker ends, with all its other connections.
* `Fly.Conn.C112_interim_response_refuted` — for every request that expects 100: when the interim response has been sent, at whatever point of the history, the worker uses the freed response.
* `Fly.Conn.C112_accept_error_refuted` — when `accept` fails, for every reason, among them that the process has too many open files, for which the code means to wait: the worker ends.
* `Fly.Conn.C113_silent_client_refuted` — for clients that connect and say nothing: when their time is over, the worker follows a null pointer, whatever it had been doing for others. The same happens when the process is ended in an orderly way while there is such a client.
* `Fly.Conn.C113_stalled_handshake_refuted` — for clients that stop in the middle of a TLS handshake.
* `Fly.Conn.C114_bad_line_leaks_refuted` — : each malformed request line, also after any number of requests on a connection, loses the memory of a request for as long as the worker lives.
* `Fly.Keep.C115_pipelined_lost_refuted` — for clients that do not wait: everything that arrives together with a request, behind it, is thrown away. Whatever requests follow in the same piece, only the first is answered.
* `Fly.Keep.C115_body_taken_for_request_refuted` — for requests that are refused for their header while their body is still on its way: the body is taken for the next request. If it has the form of a request, that request is carried out and answered.
* `Fly.Keep.C116_client_close_ignored_refuted` — for clients: a client that sends `Connection: close` finds the connection still open after the answer, for every such request that is answered by the server itself, or by an application that does not close the connection.
* `Fly.PyForm.C117_taken_refuted` — A parameter without annotation called `header` takes the headers away: every header parameter after it is `None`, whatever headers the client sent. The same holds for `cookie`, `query` and `body`.
* `Fly.PyForm.C117_capital_refuted` — A header parameter whose name has a capital letter (`userId: Header`) is `None` in every call, whatever the client sends; so is a query parameter and a cookie.
* `Fly.PyForm.C118_repeated_refuted` — Several fields of one name (a list of check boxes, several files): only the last one reaches the handler, however many there are; the contents of the others are nowhere in the form.
* `Fly.PyForm.C118_unquoted_refuted` — A disposition whose last parameter is not quoted – a name written as a token (`name=a`), the extended file name of RFC 6266 (`filename*=UTF-8''x`), a size – makes the whole form a 400.
* `Fly.PyForm.C118_writing_refuted` — A disposition is also refused when `form-data` is not written in small letters or is followed by a space, or when another parameter comes before the name.
* `Fly.PyForm.C118_order_refuted`
* `Fly.PyForm.C119_server_error_refuted` — A JSON body that is not JSON, an urlencoded body that is not UTF-8 and a JSON body that is no object are the client's mistakes, but the answer is 500.
* `Fly.PyForm.C119_raw_multipart_refuted` — When the parts of a multipart body are not found (C98: no blank before `boundary`, another parameter first, no parts), the handler is not called and the answer is 500.
* `Fly.PyForm.C119_null_refuted` — For the JSON body `null` the class of the form is not asked: the handler is called with `None`.
* `Fly.Codec.C121_deflate_body_crash_refuted` — Every body whose deflate encoding has more than 4096 bytes ends the process.
* `Fly.Codec.C121_deflate_files_refuted` — No file at all is sent correctly with deflate, whatever the file, its size and the library: there is no number of steps after which the response has the right `Content-Length` and content.
* `Fly.Codec.C121_deflate_small_file_413_refuted` — A file that can be read and whose encoding stays below 4096 bytes is answered 413 (too large).
* `Fly.Codec.C122_br_body_cut_refuted` — Every body whose brotli encoding has more than 4096 bytes is sent cut off, as a complete response.
* `Fly.Codec.C122_br_file_cut_refuted` — So is a file that does not fit: if the library writes nothing before it is asked for the end (as brotli does with files that fit into its window) and then writes more than 4096 bytes, the client gets the first 4096 of them as a complete response.
* `Fly.H2L.C124_frames_behind_a_request_refuted` — Frames that are received together with a request, behind it, are not handled: not when the response has been sent, and not at all, however long the server runs, until the client sends more bytes. (A client that sends two requests in one packet and waits never gets the second response.)
* `Fly.H2L.C125_client_without_requests_refuted` — A client that sends SETTINGS, and after that SETTINGS and PING frames only, never gets any answer, in any schedule: neither the server's settings, nor an acknowledgement, nor a PING back.
* `Fly.H2L.C126_cancelled_request_blocks_refuted` — Once the client has cancelled (RST_STREAM) the request whose response is first in line, no response is ever completed again and no body of another response is sent, whatever the client does on its other streams and in every schedule.
* `Fly.H2L.C126_cancelled_empty_response_aborts_refuted` — Cancelling a request whose response has no content ends the worker process: the second turn with a writable socket runs into an assertion.
* `Fly.H2L.C127_closed_window_blocks_refuted` — While the window of the stream of the first response is closed, no other response makes progress, in any schedule, and whatever else the client sends.
* `Fly.H2L.C127_closed_window_spins_refuted` — And the server does not wait: with a window closed (the stream's or the connection's) the event loop is called again and again for the writable socket, any number of times, without any effect: the worker uses all of its processor until the client opens the window.
* `Fly.H2L.C128_goaway_never_sent_refuted` — No GOAWAY frame ever reaches a client, on any history, except in the moment in which the whole worker process ends.
* `Fly.H2L.C129_failing_frame_ends_worker_refuted` — A frame that makes the handling of frames fail (`goto emergency`) ends the whole worker process, with all its other connections, from every idle connection.
* `Fly.H2L.C129_push_promise_ends_worker_refuted` — So does any PUSH_PROMISE frame on stream 0 of a client that has sent its settings.
* `Fly.H2L.C130_long_frame_refuted` — A frame longer than the limit is handled as soon as its header is there, although its payload is not: whatever lies behind it in the buffer is read, and the buffer's length goes below zero.
* `Fly.H2P.C131_unknown_dependency_crashes_refuted` — On any connection, a PRIORITY frame that names a stream which was never opened, or which has been answered and closed, dereferences a null pointer (RFC 7540 §5.3.1: such a stream gets the default priority).
* `Fly.H2P.C131_heavier_stream_loops_refuted` — On any connection on which nothing has been recorded yet: three streams depend on the root, the third heavier than the first; a fourth that is not heavier than the first two is never processed. The first three frames are processed; the worker then serves nobody any more.
* `Fly.H2P.C131_closed_stream_used_refuted` — Once priorities have been recorded and the stream recorded first has been answered and closed, the next PRIORITY frame that depends on the root reads the freed stream.
* `Fly.H2P.C132_largest_weight_refuted` — The largest weight, 256, is recorded as 0: below every weight a client can give to another stream.
* `Fly.H2P.C133_second_dependent_refuted` — A stream that was recorded as the second dependent of the root can have no dependents: a stream said to depend on it (and no heavier than it) is put into the root's list between the two, and the second stream's own list stays itself.
* `Fly.H2P.C133_exclusive_adopts_nobody_refuted` — On any connection, a new stream that depends exclusively on a live stream becomes that stream's first dependent, but takes over none of its former dependents (RFC 7540 §5.3.3): its own list stays empty.
* `Fly.Start.C135_daemon_refuted` — Whatever the history: when a server whose start has got as far as its configuration becomes a daemon, the file names the process that was started, which is gone, and not the daemon (unless the system gives the daemon just that number again).
* `Fly.Start.C135_short_write_refuted` — Whatever the history: when the system takes only a part of the number, the server starts all the same, and the file holds that part.
* `Fly.Start.C136_no_restart_refuted` — Whatever the history `evs` in which a server has started, and however all servers then ended (`ends`: a clean end, a signal, a crash, a failing start), no server ever runs again, however often it is tried, until somebody deletes the pid file by hand.
* `Fly.Start.C136_failed_start_refuted` — The same after a start that failed behind the creation of the file, for a missing mount, a wrong route or a missing log directory: the next start is refused for the pid file.
* `Fly.Start.C136_reload_ends_server_refuted` — When the application file of a running server changes, the server ends: its own pid file keeps it from starting again.
* `Fly.Start.C138_low_descriptor_lost_refuted` — If the server was started with a closed standard stream, so that the listening socket or a log file has the number 1 or 2, a daemon that reports success has lost it.
* `Fly.Start.C139_failure_serves_refuted` — If the session, the working directory, the limit, `/dev/null` or a standard stream cannot be had, the server is started all the same, and the shell told that all is well.
* `Fly.Start.C139_second_fork_refuted` — If the second `fork` fails there is no server, but the shell is told that the start has worked.
* `Fly.Start.C140_leak_refuted` — An address whose socket cannot be made non-blocking leaves its descriptor open, whether the call succeeds or fails.
* `Fly.Start.C140_no_reason_refuted` — A `setsockopt` that fails for one address ends the start, though other addresses could be used, and the reason reported to the application is an uninitialised pointer.
* `Fly.Start.C141_too_much_refuted` — For every other number the last block is sent in full: more bytes than asked for, and than the response announces.
* `Fly.Start.C141_endless_refuted` — If the file has fewer bytes than asked for (it was cut meanwhile, for instance), the call never returns.
* `Fly.Start.C141_repeats_refuted` — If the connection takes only a part of the block, the bytes that follow are again those from the beginning of the block.
* `Fly.Start.C141_repeats_wrong_refuted` — … so the byte behind the part is the first one of the block instead of the next one of the file.
* `Fly.Start.C141_null_offset_refuted` — `sendfile(2)` allows a null offset; here a call that has sent everything writes through the null pointer.
* `Fly.Watch.C144_short_lived_file_refuted` — In every mount point, whatever was added before: a file that is made and removed before the master looks (a temporary file) ends the server.
* `Fly.Watch.C144_written_then_removed_refuted` — In every calm mount point with files: a file that is written to and removed before the master looks ends the server.
* `Fly.Watch.C145_subdirectories_unnoticed_refuted` — Whatever is added, after the start, to the sub-directories that were there at the start: the master never notices anything, and the workers are never told.
* `Fly.Watch.C145_renamed_unnoticed_refuted` — In every calm mount point with files, renaming a file to a free name or over another file (the usual way of replacing a file at once): when the master has read everything, the kernel no longer watches the file, and writing to it under its new name, any number of times, tells the workers nothing.
* `Fly.H2A.C149_acknowledgement_overwrites_refuted` — The server's own setting, cut to 16 bits, takes the place of what the client asked for: if one setting is configured, then after the client's SETTINGS frame `l`, whatever it asks for, after the answers have been sent and the client has acknowledged them as it must, the client's value in force for that setting is the server's.
* `Fly.H2A.C149_window_closed_refuted` — So a generous window of the server, 64 KiB or a multiple of it, closes the client's: the window for new responses becomes 0.
* `Fly.H2A.C149_stray_memory_refuted` — With two settings configured, bytes of memory that nobody wrote become the client's settings: what the second half of the payload's memory held, read as a setting.
* `Fly.H2A.C150_overtaking_refuted` — An acknowledgement that arrives together with a SETTINGS frame releases the server's answer to that frame before it has been sent; sending it uses the released memory. This holds after every calm history `h`, whatever was configured.
* `Fly.H2A.C150_overtaking_compliant_refuted` — A client that keeps to the protocol can do this: it sends SETTINGS, reads the answers, and sends its acknowledgement right after new SETTINGS.
* `Fly.H2A.C151_payloads_kept_refuted` — If settings are configured, the payload of every SETTINGS frame the server ever sent stays in memory for as long as the connection lasts, acknowledged or not: as many payloads as SETTINGS frames of the client.
* `Fly.Pages.C153_page_411_ignored_refuted` — The page for 411 is never used: 411 is not in the table.
* `Fly.Pages.C153_long_directory_refuted` — A directory whose path is longer than 4086 bytes makes the worker write behind its buffer.
* `Fly.Signals.C154_child_ends_worker_refuted` — When a function of the application starts another program (`subprocess.run`) and this ends, the worker gets SIGCHLD, which it has no entry for: whatever the worker was sent before and after, it has ended by the time it has read its signals, and its connections with it.
* `Fly.Signals.C154_mild_signals_end_refuted` — SIGCONT, and the signals of a terminal that stop a process (SIGTSTP, SIGTTIN, SIGTTOU), and SIGURG end the worker and the whole server when they are read: a server that is sent to the background and back is gone.
* `Fly.Signals.C154_change_kills_starting_refuted` — The master tells workers of changed files with SIGUSR1; a worker that has not set up its signals yet, in a server with the usual settings, is killed by it.
* `Fly.Signals.C156_all_blocked_refuted` — After the server has returned, because of a signal or for a reload, all signals are blocked, whatever the program had set: the mask that `sigsetjmp` kept is the server's own. A signal that the program has a function for, or that would end it, is not delivered any more.
* `Fly.Signals.C156_all_unblocked_refuted` — In a build without `sigsetjmp` it is the other way round: what the program had blocked is not any more.
* `Fly.Signals.C158_cannot_be_terminated_refuted` — When the application file has an error after a reload, all signals are blocked while the server waits for a correction (C156), and it only ever looks at SIGINT: it goes on waiting whatever other signals it is sent, however many and however often.
* `Fly.Signals.C159_forgotten_worker_stays_refuted` — A worker that is a child of the master but not in its table (one that was stopped, C83) and does not end by itself is there when the new application is loaded.
* `Fly.Signals.C159_busy_worker_blocks_refuted` — As long as one of the workers does not end, because it is stopped or a function of the application does not return (the worker reads its signals only between requests), the master waits in `wait` and the new application is not loaded: with fewer ends than workers it is never done.
* `Fly.Signals.C160_worker_replaced_refuted` — Any process that may send the master a signal can have it forget a worker, and have itself told to end in its place: `sigqueue` of SIGUSR1 with the worker's process id as value.
* `Fly.Life.C162_grows_refuted` — With a configuration file or a log directory every reload leaves one descriptor for the file and three for the logs open, for whatever versions of the application: while the server serves after `n` reloads the process has `(n + 1)` times as many, beside those it had at first and the five in use.
* `Fly.Life.C162_exhausted_refuted` — So a server that was started with the command `fly`, which always makes a configuration file, cannot be reloaded as often as one likes: once the descriptors left behind reach the limit of the process, the server ends.
* `Fly.Life.C163_watched_paths_refuted` — The list of watched paths is walked through memory that was just freed: undefined behaviour for every list but the empty one. `run` always enters the application file (src/pyserver.c:1158, src/master.c:1585-1595), so this happens whenever a server ends or is reloaded.
* `Fly.Life.C164_recursion_refuted` — Every reload runs inside of the former one, three frames of Python's stack deeper, whether or not starts in between fail. So no server, however many descriptors it may have, serves after a number of reloads of a third of the recursion limit (1000 by default: 334 reloads).
* `Fly.Life.C165_broken_file_refuted` — A version of the application file with an error ends the server, whatever was served before: the file is executed outside of the `try`.
* `Fly.Life.C165_never_again_refuted` — When a mount point is refused (or the default content path is set, below) the process waits for a correction, but its listening socket stays open: no correction is ever served on that port.
* `Fly.Life.C165_default_content_refuted` — A server whose configuration sets the default content path never serves.
* `Fly.Life.C166_production_refuted` — `--production` and `--print_request` are forgotten: after any reload the server is in the mode that the application file says, and in debug mode when it says nothing.
* `Fly.Life.C166_own_file_refuted` — An application that names a configuration file is started with the configuration of the command line at first, and with its own file, without the options of the command line, after any reload.
* `Fly.Life.C166_own_file_ignored_refuted` — … and at first the file that the application names is not looked at.
* `Fly.Life.C167_status_refuted` — Whenever else Python ends the process, at the start or later, the status is 0.
* `Fly.Life.C167_failed_start_refuted` — So a port that is in use, a configuration that cannot be parsed and an existing pid file all give status 0 to whoever started the server.
* `Fly.Points.C169_symbolic_link_refuted` — If a symbolic link is on the way to one of the directories, whatever it leads to and whatever else is mounted, the server does not start: the directory is mounted under its real path and then looked for under the path of the link.
* `Fly.Points.C169_two_slashes_refuted` — Nor does it start if one of the directories is written with two slashes in front, which names the same directory.
* `Fly.Points.C171_master_refuted` — in the master. Whatever is mounted, as long as no directory is mounted twice: when a mount point is removed or moved, the master does not come past it. It ends, does not come to an end, or reads the path in memory it has just freed.
* `Fly.Points.C171_worker_refuted` — in the workers. No worker that is told after a mount point is gone comes past it.
* `Fly.Points.C171_only_one_refuted` — for the only mount point: the worker ends itself, although the application may have routes to serve.
* `Fly.Points.C171_one_of_several_refuted` — for one of several: the worker reads freed memory.
* `Fly.Trip.C172_two_writes_refuted` — Whatever the application and the request: there is a text, the whole response, that the client gets if the kernel takes it at once. If the first write call takes only `n` bytes of it and the second what is left, the client gets these bytes twice and never the end.
* `Fly.Trip.C172_head_refuted` — Whatever the function of a route returns for a HEAD request, be it a `Response` or a text: the client gets 500.
* `Fly.Trip.C172_inner_parameter_refuted` — If all routes of an application have a parameter before their last segment, like `/user/{id}/posts`, every request (without a closing brace in its path) for which there is no file gets 404.
* `Fly.Trip.C173_two_writes_refuted` — A closing response of which the first write call takes only `n` bytes is cut: the client gets these bytes twice, never the end, and the connection is closed.
* `Fly.PyCors.C175_origin_refuted` — In every application made for production, a route with CORS in production (`only_debug=False`) answers without `Access-Control-Allow-Origin`: the preflight succeeds, the response to the request itself is then refused by the browser. (`Access-Control-Allow-Origin` is always noted as a field for debugging only.)
* `Fly.PyCors.C175_production_refuted` — An application of definitions with one route and CORS for debugging only each, run with `--production`: from the second one on every route keeps all its CORS fields, although no path has a preflight answer any more. (The application is put together in debug mode; the walk that takes out what is for debugging skips the route behind every route it removes.)
* `Fly.PyCors.C176_path_refuted` — A path that is not written the way it is stored: repeated slashes or a newline at the end. The route alone loads and is served; with CORS on it the application never starts (the decorator looks for the path as written and fails).
* `Fly.PyCors.C176_second_method_refuted` — Two routes with the same path and different methods, both with CORS, never load, whatever else the application has: both decorators register the path for `OPTIONS`.
* `Fly.PyCors.C176_method_member_refuted` — A member of `Method` among `allow_methods`, which the check of the arguments accepts, never loads.
* `Fly.PyCors.C176_debug_route_refuted` — A debug route with CORS also in production (`@all_allow_cors` or `only_debug=False`) makes every application made for production fail to load, where without CORS the route is just left out.
* `Fly.H2Trip.C177_window_refuted` — Whatever the application and the request: a response with content at least as long as one of the (open) windows of the client is sent without an end: the client never has a whole response, whatever frames it allows.
* `Fly.H2Trip.C177_frame_size_refuted` — Whatever the application and the request: a response with content longer than the client allows for a frame is sent in one frame, which the client refuses.
* `Fly.H2Trip.C177_coded_too_long_refuted` — A function returns content that is to be encoded and whose encoded form is too long: the response is released twice.
* `Fly.H2Trip.C177_head_refuted` — Whatever the `Response` or text that the function returns for a HEAD request: the client reads a 500, as if the function had raised an exception.
* `Fly.H2Trip.C177_client_table_refuted` — Whatever the application and the request: if a field of the response is one that the client has entered in its table (with this request or before), no field before it in the table has a name that begins its name, and it is not found in the static table, then the response refers to it by its number there; a client that has not been sent the field before does not read the fields of the response.
* `Fly.PyText.C178_text_changed_refuted` — Whatever text with a capital letter: one HTTP/2 response with it as the name of a field changes it, for good: whatever is served after that, the application has another text (the name in small letters), though Python's texts never change.
* `Fly.PyText.C178_other_responses_refuted` — Whatever text with a capital letter is used as a name or as a value: once an HTTP/2 response had it as a name, HTTP/1 clients get it in small letters where they got it as written before.
* `Fly.PyText.C178_value_changed_refuted` — Whatever text with a capital letter: as name and value of the same field of an HTTP/2 response it is sent with a value that the application did not give.
* `Fly.WStart.C180_unreadable_refuted` — is false: a file that is there but may not be read (or cannot be encoded), of a size that is encoded in advance, ends every worker before it serves anything, whatever else is mounted, however many descriptors there are; and the master, whatever happened before, ends the whole server when it hears of it.
* `Fly.WStart.C180_request_refuted` — is false: a file that is not encoded in advance and cannot be opened (or is gone, or whose path is too long) does not keep the worker from coming up, but one GET of it ends the worker.
* `Fly.WStart.C181_never_serves_refuted` — is false: with as many small files as descriptors, no worker ever serves, and the server neither ends nor says so: every worker exits, and the master, however often it heard of one, goes on with the configured number of new ones, each of which will exit.
* `Fly.WStart.C181_deaf_refuted` — is false: with descriptors for everything but its signals a worker serves, and no SIGTERM ends it.
* `Fly.Session.C182_remove_refuted` — is false for a lifetime of 0, by which an application means to remove a cookie: after any history the cookie is sent for ever.
* `Fly.Session.C182_equals_refuted` — is false for values with an equals sign (padded base64, for one): what is behind it is lost.
* `Fly.Session.C182_names_refuted` — is false for two cookies whose names differ only in capital letters, `-` and `_`: no parameter gets the one that was set later.
* `Fly.Date.C184_locale_refuted` — is false: in a program that has set a locale (`locale.setlocale(locale.LC_ALL, "")`), on every day whose name, and in every month whose name, is not the English one, what is sent is not the HTTP date of the time.
* `Fly.Site.C185_identity_refuted` — A GET request for a mounted file at least as long as the threshold, of a client for which `identity` was chosen (`Accept-Encoding: identity` and no form encoded in advance that it accepts): the response is made from a null pointer. The client gets nothing, whatever the file contains.
* `Fly.Site.C185_unaccepted_form_refuted` — A GET request for a file that is kept in an encoded form which the client does not accept, no coding having been chosen: the client reads 200, no Content-Encoding, and the *encoded* bytes as content. After them come bytes from the server's memory, as many as the encoded form is shorter than the file, which the client takes for the next response.
* `Fly.Site.C186_memory_sent_refuted` — After any history that leaves a file, sent as it is, shorter than it was when it was mounted: a client that asks for it reads, as the end of its content, bytes of the server's memory, exactly as many as the file lost.
* `Fly.Site.C186_cut_refuted` — If the history leaves it longer, the client reads only the beginning, with the new hash if the change was noticed.
* `Fly.Site.C186_old_form_refuted` — A file that was encoded in advance is sent in this form for ever, to every client that accepts it and whatever was written since.
* `Fly.Site.C188_prefix_listed_refuted` — Whenever the path of a function for another method than GET is a proper beginning of the path (like `/`, for every path), its method is listed in Allow: also if there is no function for it at this path, so that the request with this method gets 405 again, with the same list.
* `Fly.Serve.C191_one_stops_all_refuted` — Without "as long as the worker runs": in every state, one request with `Expect: 100-continue` and an allowed content on a fresh connection ends the worker (what it does after its 100 is undefined, `C50_after_100_undefined_refuted`), and no client ever receives anything again.
* `Fly.Serve.C191_long_line_stops_all_refuted` — The same for a request line of 8000 bytes or more, whatever it says: instead of being answered 414 (`C23_414_answer_crashes_refuted`) it ends the worker, and no client ever receives anything again.
* `Fly.H2S.C192_oversized_code_refuted` — A HEADERS frame longer than the announced maximum is reported with PROTOCOL_ERROR instead of FRAME_SIZE_ERROR, and its request is answered all the same.
* `Fly.H2S.C192_ack_payload_refuted` — A SETTINGS frame with ACK and a payload, a FRAME_SIZE_ERROR by RFC 9113 §6.5, is accepted in silence if its length is a multiple of six.
* `Fly.BodyLen.C193_two_lengths_refuted` — (two lengths): a request with two different lengths is not rejected: the first one counts, whatever the second is.
* `Fly.BodyLen.C193_trailing_text_refuted` — (not a number): what follows the digits is ignored, so `Content-Length: 5, 7` or `5x` are lengths.
* `Fly.BodyLen.C193_negative_refuted` — (negative): a negative length is not rejected: the server takes it for a huge one, `2^64 - n`.
* `Fly.H2Site.C194_empty_file_refuted` — Whatever the site, and whatever windows and frames the client allows: an empty file is sent as header fields without an end of the stream, and nothing follows: the client never has a whole response.
* `Fly.H2Site.C194_long_file_refuted` — Whatever the site: to send a file of more than 4096 bytes as it is, the worker writes beyond a buffer of 4096 bytes on its stack as soon as the header of the DATA frame is out.
* `Fly.H2Site.C194_stored_form_refuted` — Whatever the site: a file that is kept in a shorter, encoded form, asked for by a client that does not accept its coding, is announced with the length of the file in a DATA frame in which only the encoded form comes: the client does not have a whole response.
* `Fly.Nego.C195_refused_form_sent_refuted` — A GET request for a file that is kept encoded, by a client that refuses this coding (`Accept-Encoding: br, gzip;q=0`) but not everything: it gets the file in the refused coding.
* `Fly.Nego.C195_asterisk_refuted` — A client that takes every coding but the ones it names, with `*` and quality 0 for these, gzip being one of them: a function's content, if it is as long as the threshold, comes in gzip.
* `Fly.Nego.C195_identity_taken_refuted` — A client that names codings with quality 0, neither `identity` nor `*` among them, takes contents without coding (RFC 9110, 12.5.3). It gets 406.
* `Fly.Nego.C195_media_not_compared_refuted` — A client that takes no text at all, only media types of other kinds, asks for a function that returns a plain value. It gets plain text.
* `Fly.Refuse.C195_quality_one_refuted` — A client that says of a media type it takes it with quality 1, as RFC 9110 allows, gets 400 from every site for every request, and never what it asked for.
* `Fly.Log.C106_long_entry_refuted` — for long entries (a request target of some 230 bytes is enough): the entry has no line break and ends with `...` and NUL, and the next entry is on the same line.
* `Fly.H2R.C101_empty_scheme_refuted` — A literal `:scheme` with an empty value (a null pointer in the cell) makes the server follow a null pointer, on any connection and whatever follows.
* `Fly.H2Access.C200_query_refuted` — *(negation of the rest)*. Of a request with a query, the log keeps what is too short by the length of the query.
* `Fly.H2Access.C200_closed_window_refuted` — *(negation of the rest)*. A client that begins with a window of 0 in its settings and asks for something without content, a page that does not exist, say, reads the whole response; there is no entry for it in the log (as long as the window stays closed).
* `Fly.H2L.C204_nothing_sent_after_goodbye_refuted` — Once the client's GOAWAY has been handled nothing is sent to it any more, in any schedule: neither the responses to its requests nor anything else.
* `Fly.H2L.C204_waiting_response_refuted` — Of the requests that were complete when the client said goodbye, take the first. If a frame of its response is still waiting, the next event of the connection reads freed memory.
* `Fly.H2L.C204_handler_again_refuted` — If all frames of its response that can be sent were sent (or its answer is still to come), the application's handler is called once more for the same request.
* `Fly.H2L.C204_lower_stream_closes_refuted` — If a response was finished before and the GOAWAY names a lower stream (clients name 0, as the server opens no streams), the connection is closed at the next event, whatever waits to be sent.
* `Fly.Send.C16_h2_frame_resent_refuted` — Whatever the frame: if its payload is cut after `n` bytes by blocking, those bytes are sent a second time.
* `Fly.Send.C16_h2_data_header_resent_refuted` — Over plain TCP a partly written DATA frame header is started again.
* `Fly.H2Wire.C206_padded_headers_refuted` — On every live connection, for every correct header block: if the client pads the frame with `3 * k` zeros, as RFC 9113, 6.2 demands them to be, the request gets `k` more fields, with empty names and values, behind those the client has sent.
* `Fly.H2Wire.C206_padded_data_refuted` — On every live connection: the padding of a DATA frame, whatever it is, is taken for content.
* `Fly.H2S.C64_padding_enters_body_refuted` — On every live connection: the padding of a DATA frame becomes part of the body. A request that announces the length of data and padding together is answered with both; one that announces its data's length (and pads) is not answered: the connection ends.
* `Fly.H2Buf.C208_allowed_frame_overflows_refuted` — The whole buffer may be as small as the largest frame without its header (src/v2.c:651-656 ask for no more). If a frame and its header do not fit into it with one byte left, the frame is never handled, however its bytes arrive: the buffer runs out of room and the handler fails.
* `Fly.H2Buf.C208_split_preface_refused_refuted` — RFC 9113 lets the 24 bytes of the preface arrive in any pieces. If only some of them arrive with the first event and the next byte of the chunk's memory is not by chance the one that will follow, the client is refused although all it sent is correct, and none of its frames is handled.
* `Fly.H2Buf.C208_pipelined_requests_overflow_refuted` — With every event at most one frame that begins a response is handled, but a whole chunk is read. A client that sends enough such frames at once, each of them smaller than a chunk and allowed, runs the buffer out of room: the connection fails, though none of the frames is wrong.
* `Fly.H2A.C209_waiting_and_unacknowledged_refuted` — In the other case released memory is used: a SETTINGS frame of the server waits to be sent, and another one has been sent since the last acknowledgement. The first is released as one to be sent and found again among those to be acknowledged.
* `Fly.H2A.C209_client_leaves_refuted` — A client that keeps to the protocol can do this: it sends SETTINGS, reads the answers, sends SETTINGS again and goes away.
* `Fly.H2A.C209_overtaken_refuted` — An acknowledgement that overtakes a SETTINGS frame of the server does harm even if nothing is sent any more: when the client goes away then, the frame it has released is released again.
* `Fly.H2Credit.C210_begun_update_replaced_refuted` — If the socket stops inside the payload of a WINDOW_UPDATE and more is credited meanwhile, the frame is taken back although its beginning has gone out, and the combined frame follows inside it.
* `Fly.H2Credit.C210_wrong_increment_refuted` — If it stops right behind the header, the client reads an increment of 1032 bytes, whatever has been credited: the beginning of the next header.
* `Fly.H2Credit.C210_stopped_send_repeats_refuted` — Nothing need be credited meanwhile: wherever inside the frame the socket stops, the bytes of the header, or of the payload, that have gone out go out again.

## Axioms

Printed by `#print axioms` for every theorem named in MANIFEST.json.

* Quot.sound: `Fly.Start.C141_null_offset_refuted`, `Fly.Signals.C156_mask_partial`, `Fly.Signals.C156_all_unblocked_refuted`
* none: `Fly.Response.C19_wrong_reason_refuted`, `Fly.Req.C26_alpn_prefix_refuted`, `Fly.Conf.C41_truth`, `Fly.Scan.C81_same_second_refuted`, `Fly.PyRoute.C84_exit_refuted`, `Fly.PyBridge.C94_constructor_header_dropped_refuted`, `Fly.PyBridge.C94_empty_json_refuted`, `Fly.Log.C109_long_path_refused`, `Fly.Log.C109_error_destinations_partial`, `Fly.Log.C109_error_lost_refuted`, `Fly.Log.C110_formatted_emergency_refuted`, `Fly.Conn.C112_accept_error_refuted`
* propext: `Fly.Hpack.C11_table_is_canonical_partial`, `Fly.Send.C15_closed_window_waits`, `Fly.Header.C20_empty_name_crashes_refuted`, `Fly.Cache.C34_empty_value_refuted`, `Fly.Cache.C35_source_refuted`, `Fly.Pool.C42_index_released`, `Fly.Send.C66_long_field_refuted`, `Fly.ReqHeader.C69_name_across_chunks_refuted`, `Fly.Scan.C81_partial`, `Fly.Master.C82_partial`, `Fly.Master.C82_save_refuted`, `Fly.Master.C82_production_refuted`, `Fly.PyRoute.C84_ascii_body`, `Fly.PyRoute.C84_type_refuted`, `Fly.PyRoute.C88_constructor_refuted`, `Fly.PyBridge.C94_head_sends_bytes_refuted`, `Fly.PyBridge.C95_http2_failure`, `Fly.H2R.C100_second_path_wins_refuted`, `Fly.H2R.C100_missing_scheme_accepted_refuted`, `Fly.H2R.C101_statuses`, `Fly.H2R.C101_empty_scheme_refuted`, `Fly.H2B.C104_no_content_partial`, `Fly.H2B.C104_default_content_spins_refuted`, `Fly.H2B.C104_identity_file_undefined_refuted`, `Fly.H2B.C105_body_survives_partial`, `Fly.H2B.C105_encoded_survives_partial`, `Fly.Log.C106_written_partial`, `Fly.Conn.C112_connection_partial`, `Fly.Conn.C114_no_leak_partial`, `Fly.PyForm.C118_writing_refuted`, `Fly.PyForm.C118_order_refuted`, `Fly.Start.C137_never_foreign`, `Fly.Start.C139_first_fork_partial`, `Fly.Start.C139_failure_serves_refuted`, `Fly.Start.C139_second_fork_refuted`, `Fly.Signals.C160_table_kept_partial`, `Fly.Signals.C160_worker_replaced_refuted`, `Fly.Life.C163_watched_paths_refuted`, `Fly.Life.C165_broken_file_refuted`, `Fly.Life.C166_own_file_ignored_refuted`, `Fly.Life.C167_load_error_partial`, `Fly.Life.C167_status_refuted`, `Fly.PyCors.C175_no_trace_partial`
* propext, Classical.choice, Quot.sound: `Fly.RB.C01_index_is_finite_map`, `Fly.RB.C02_lookup_cost_logarithmic`, `Fly.RB.C03_handles_stay_valid`, `Fly.RB.C03_duplicate_insert_dangling_refuted`, `Fly.RB.C04_count_exact`, `Fly.Buffer.C05_buffer_is_byte_queue`, `Fly.Buffer.C05_request_line_split`, `Fly.Buffer.C05_distance`, `Fly.Buffer.C05_stray_cr_hides_line_end_refuted`, `Fly.Buffer.C05_search_reads_unreceived_memory_refuted`, `Fly.Buffer.C06_buffer_count_and_capacity`, `Fly.Buffer.C06_overflow_iff_full`, `Fly.Buffer.C06_release_all_of_full_buffer_crashes_refuted`, `Fly.H2.C07_read_header`, `Fly.H2.C07_frame_header_roundtrip`, `Fly.H2.C07_reserved_bit_misread_refuted`, `Fly.H2.C07_read31_contiguous_partial`, `Fly.H2.C07_read31_chunk_crossing_refuted`, `Fly.Hpack.C08_decode_integer`, `Fly.Hpack.C10_dynamic_table_order`, `Fly.Hpack.C11_huffman_roundtrip_partial`, `Fly.Hpack.C11_carriage_return_aborts_refuted`, `Fly.Hpack.C11_bad_padding_reads_beyond_refuted`, `Fly.H2S.C12_stream_ids_odd_and_growing`, `Fly.H2S.C12_new_stream_accepted_iff`, `Fly.H2S.C12_priority_opens_stream_refuted`, `Fly.H2S.C13_live_streams_are_opened_minus_closed`, `Fly.H2S.C13_limit_respected_partial`, `Fly.H2S.C13_unlimited_streams_refuted`, `Fly.H2.C14_window_updates_conserve_credit`, `Fly.Send.C15_small_response_within_windows_partial`, `Fly.Response.C18_handler_body_length`, `Fly.Response.C18_static_file_length_partial`, `Fly.Response.C18_no_content_length`, `Fly.Response.C18_identity_file_crashes_refuted`, `Fly.Response.C18_unaccepted_encoding_sent_refuted`, `Fly.Header.C20_header_list_refines_pairs`, `Fly.Header.C20_conditional_add_never_duplicates`, `Fly.Header.C20_case_variant_duplicated_refuted`, `Fly.Header.C20_remove_present_header_undefined_refuted`, `Fly.Req.C21_origin_form_round_trip_partial`, `Fly.Req.C21_connection_round_trip_partial`, `Fly.Req.C21_empty_query_is_none`, `Fly.Req.C21_leading_percent_of_query_cut_refuted`, `Fly.Req.C21_connect_target_is_lost_refuted`, `Fly.Req.C21_connect_host_port_refused_refuted`, `Fly.Req.C21_absolute_and_asterisk_form_refused_refuted`, `Fly.Req.C22_accepted_iff_partial`, `Fly.Req.C22_connection_request_line`, `Fly.Req.C22_spaces_and_protocol_name_refuted`, `Fly.Req.C23_414_iff_8000_partial`, `Fly.Req.C23_endless_line_gets_no_414_refuted`, `Fly.ReqEvent.C23_414_answer_crashes_refuted`, `Fly.Route.C24_registration_order`, `Fly.Route.C24_plain_routes`, `Fly.Route.C24_first_match_partial`, `Fly.Route.C24_method_ignored_refuted`, `Fly.Route.C24_inner_parameter_never_found_refuted`, `Fly.Route.C25_last_parameter_partial`, `Fly.Route.C25_names_and_types_partial`, `Fly.Route.C25_blanks_partial`, `Fly.Route.C25_values`, `Fly.Route.C25_bool_is_float_refuted`, `Fly.Route.C25_only_first_parameter_refuted`, `Fly.Route.C25_type_suffix_accepted_refuted`, `Fly.Req.C26_method_and_version_exact_partial`, `Fly.Req.C26_http2_method_prefix_refuted`, `Fly.Encode.C27_choice_partial`, `Fly.Encode.C27_asterisk_selects_refused_refuted`, `Fly.Encode.C27_weight_carried_over_refuted`, `Fly.Encode.C27_small_quality_refused_refuted`, `Fly.Encode.C28_not_dominated_partial`, `Fly.Encode.C28_agreeing_partial`, `Fly.Encode.C28_gzip_first_wins_refuted`, `Fly.Mime.C29_understood_partial`, `Fly.Mime.C29_quality_one_refuted`, `Fly.Mime.C29_quality_zero_refuted`, `Fly.Mime.C29_blank_refuted`, `Fly.Mime.C29_parameter_swallows_refuted`, `Fly.Mime.C29_parameter_comma_blank_refuted`, `Fly.Mime.C29_quoted_value_lost_refuted`, `Fly.Mime.C29_quoted_comma_refuted`, `Fly.Mime.C29_small_weight_refuted`, `Fly.Lang.C30_reads_inside`, `Fly.Lang.C30_short_names_partial`, `Fly.Lang.C30_long_name_refuted`, `Fly.Mount.C31_only_wanted`, `Fly.Mount.C31_exact_partial`, `Fly.Mount.C31_directory_refuted`, `Fly.Mount.C31_equal_names_refuted`, `Fly.Mount.C32_lexicographic`, `Fly.Mount.C32_total_order`, `Fly.Mount.C32_watched_name_refuted`, `Fly.Mount.C33_partial`, `Fly.Mount.C33_exact`, `Fly.Mount.C33_sibling_refuted`, `Fly.Mount.C33_subdirectory_refuted`, `Fly.Cache.C34_http1_never_304_refuted`, `Fly.Cache.C34_lower_case_refuted`, `Fly.Cache.C34_if_none_match_partial`, `Fly.Cache.C34_current_tag_304_partial`, `Fly.Cache.C35_same_tag_iff`, `Fly.Cache.C35_partial`, `Fly.Cache.C35_collisions_refuted`, `Fly.Cache.C35_source_partial`, `Fly.Event.C36_expired_are_marked`, `Fly.Event.C37_less_than_a_second_partial`, `Fly.Event.C37_same_second_refuted`, `Fly.Event.C37_extended_still_closed_refuted`, `Fly.Event.C38_poll_timeout_partial`, `Fly.Event.C38_far_deadline_spins_refuted`, `Fly.Event.C39_index_exact`, `Fly.Event.C40_add`, `Fly.Event.C40_sub_partial`, `Fly.Event.C40_cmp_partial`, `Fly.Event.C40_after_2038_refuted`, `Fly.Event.C40_msec`, `Fly.Conf.C41_partial`, `Fly.Conf.C41_number`, `Fly.Conf.C41_unknown`, `Fly.Conf.C41_malformed`, `Fly.Conf.C41_no_equals`, `Fly.Conf.C41_last_line_refuted`, `Fly.Conf.C41_last_blank_refuted`, `Fly.Conf.C41_long_line_refuted`, `Fly.Conf.C41_long_comment_refuted`, `Fly.Conf.C41_trailing_text_refuted`, `Fly.Conf.C41_lax_number_refuted`, `Fly.Conf.C41_exit_refuted`, `Fly.Conf.C41_half_applied_refuted`, `Fly.Pool.C42_live`, `Fly.Pool.C42_alloc`, `Fly.Pool.C42_free`, `Fly.Pool.C42_delete`, `Fly.Master.C43_partial`, `Fly.Master.C43_never_more_partial`, `Fly.Master.C43_stopped_refuted`, `Fly.Master.C43_two_ends_refuted`, `Fly.Master.C43_early_end_refuted`, `Fly.Master.C43_status_refuted`, `Fly.PyRoute.C45_defaults_never_override`, `Fly.PyRoute.C45_plain_results`, `Fly.PyArgs.C46_partial`, `Fly.PyArgs.C46_receiver`, `Fly.PyArgs.C46_expire_refuted`, `Fly.PyArgs.C46_injection_refuted`, `Fly.PyArgs.C47_shadow_refuted`, `Fly.PyArgs.C48_partial`, `Fly.PyRoute.C49_partial`, `Fly.PyRoute.C49_second_method_refuted`, `Fly.ReqEvent.C50_handler_body_exact`, `Fly.ReqEvent.C50_limit_decides_partial`, `Fly.ReqEvent.C50_expectation`, `Fly.ReqEvent.C50_after_100_undefined_refuted`, `Fly.ReqEvent.C50_no_answer_before_whole_body_refuted`, `Fly.ReqEvent.C51_static_selection`, `Fly.ReqEvent.C51_route_called`, `Fly.Req.C52_path_accepted_iff`, `Fly.Req.C52_classes`, `Fly.Req.C52_token_class_refuted`, `Fly.Response.C53_decimal_reads_back`, `Fly.Link.C54_lists`, `Fly.Link.C54_queues`, `Fly.Link.C54_pop_takes_last`, `Fly.Link.C54_pop_empty_refuted`, `Fly.Link.C54_remove_twice_refuted`, `Fly.Buffer.C55_preface_accepted_iff_partial`, `Fly.Buffer.C55_split_preface_refused_refuted`, `Fly.H2.C56_peer_settings_partial`, `Fly.H2.C56_small_header_list_size_refused_refuted`, `Fly.H2.C56_zero_frame_size_accepted_refuted`, `Fly.H2.C56_second_initial_window_wrong_refuted`, `Fly.H2.C57_ping_reply_echoes_data_partial`, `Fly.H2.C58_goaway_layout`, `Fly.H2.C58_rst_layout`, `Fly.Hpack.C60_header_block_partial`, `Fly.Hpack.C60_static_16_wrong_refuted`, `Fly.Hpack.C60_static_41_wrong_refuted`, `Fly.Hpack.C60_never_indexed_name_misparsed_refuted`, `Fly.Hpack.C60_bad_index_accepted_refuted`, `Fly.Hpack.C60_size_update_refused_refuted`, `Fly.H2S.C62_nothing_after_goaway`, `Fly.H2S.C62_late_window_update_ends_connection_refuted`, `Fly.H2S.C63_answers_only_complete_requests`, `Fly.H2S.C63_complete_request_answered_partial`, `Fly.H2S.C63_answered_twice_refuted`, `Fly.H2S.C63_continuation_never_answered_refuted`, `Fly.H2S.C63_data_on_stream_zero_crashes_refuted`, `Fly.H2S.C64_body_is_data_sent_partial`, `Fly.H2S.C64_padding_enters_body_refuted`, `Fly.H2S.C64_body_without_length_refuted`, `Fly.H2S.C64_short_body_uninitialised_refuted`, `Fly.H2S.C65_credit_returned_partial`, `Fly.H2S.C65_padding_not_credited_refuted`, `Fly.H2S.C65_zero_increment_errors_swapped_refuted`, `Fly.Send.C66_block_over_1000_bytes_lost_refuted`, `Fly.Header.C67_connection_decided_by_response_header`, `Fly.Header.C67_request_close_ignored_refuted`, `Fly.Req.C68_http2_path_split_partial`, `Fly.Req.C68_http2_percent_refused_refuted`, `Fly.Req.C68_http2_empty_query_refuted`, `Fly.ReqHeader.C69_header_fields_exact`, `Fly.ReqHeader.C69_rfc_fields_delivered_partial`, `Fly.ReqHeader.C69_no_blank_after_colon_refuted`, `Fly.ReqHeader.C69_obs_text_dropped_refuted`, `Fly.ReqHeader.C69_trailing_blank_kept_refuted`, `Fly.ReqHeader.C69_bare_lf_eats_body_byte_refuted`, `Fly.ReqHeader.C69_nul_never_answered_refuted`, `Fly.ReqHeader.C70_malformed_lines_ignored_refuted`, `Fly.ReqHeader.C70_outcome_independent_of_body_partial`, `Fly.ReqEvent.C71_arrival_independent_partial`, `Fly.ReqEvent.C71_crash_only_partial`, `Fly.ReqEvent.C71_headerless_in_two_pieces_refuted`, `Fly.ReqEvent.C71_half_close_unanswered_refuted`, `Fly.Route.C72_allow_get_and_parameters_refuted`, `Fly.Encode.C73_reads_stay_inside`, `Fly.Encode.C73_wellformed_parsed_partial`, `Fly.Encode.C73_name_overflow_refuted`, `Fly.Encode.C73_quality_overflow_refuted`, `Fly.Encode.C73_blank_before_comma_rejected_refuted`, `Fly.Lang.C74_understood_partial`, `Fly.Lang.C74_many_decimals_refused`, `Fly.Lang.C74_blank_before_comma_refuted`, `Fly.Lang.C74_charset_tab_refuted`, `Fly.Mime.C75_safe_partial`, `Fly.Mime.C75_reads_inside`, `Fly.Mime.C75_extension_crashes_refuted`, `Fly.Mime.C75_extension_behind_blank`, `Fly.Mime.C75_long_subtype_overflows_refuted`, `Fly.Event.C76_quiet_turn_fires_partial`, `Fly.Scan.C78_partial`, `Fly.Scan.C78_long_name_refuted`, `Fly.Scan.C78_unreadable_directory_refused`, `Fly.Scan.C80_partial`, `Fly.Scan.C80_exact`, `Fly.Scan.C80_unreadable_file_refuted`, `Fly.Scan.C80_replaced_directory_refuted`, `Fly.Scan.C80_name_elsewhere_refuted`, `Fly.Master.C83_partial`, `Fly.Master.C83_stopped_refuted`, `Fly.PyRoute.C84_partial`, `Fly.PyRoute.C84_message_decodes`, `Fly.PyRoute.C85_partial`, `Fly.PyRoute.C85_origin_refuted`, `Fly.PyRoute.C85_debug_only_refuted`, `Fly.PyRoute.C86_debug_routes_gone`, `Fly.PyRoute.C87_partial`, `Fly.PyRoute.C87_switch_refuted`, `Fly.PyRoute.C88_partial`, `Fly.PyArgs.C89_partial`, `Fly.PyArgs.C89_equals_refuted`, `Fly.PyArgs.C90_partial`, `Fly.PyArgs.C91_partial`, `Fly.Cli.C92_partial`, `Fly.Cli.C92_last_line_refuted`, `Fly.Cli.C92_space_refuted`, `Fly.Cli.C93_partial`, `Fly.Cli.C93_refuted`, `Fly.PyBridge.C94_response_received_partial`, `Fly.PyBridge.C94_plain_value_received_partial`, `Fly.PyBridge.C94_http2_fields_partial`, `Fly.PyBridge.C94_head_always_500_refuted`, `Fly.PyBridge.C94_unknown_status_refuted`, `Fly.PyBridge.C95_failure_is_500`, `Fly.PyBridge.C95_malformed_is_500`, `Fly.PyBridge.C95_too_long_is_413`, `Fly.PyBridge.C95_encoded_too_long_is_413`, `Fly.PyBridge.C96_default_content_never_sent_refuted`, `Fly.PyReq.C97_dictionary_partial`, `Fly.PyReq.C97_ascii_request_seen`, `Fly.PyReq.C97_bad_parameter_refused`, `Fly.PyReq.C97_not_utf8_undefined_refuted`, `Fly.Multipart.C98_parts_received_partial`, `Fly.Multipart.C98_blanks_partial`, `Fly.Multipart.C98_empty_form_refuted`, `Fly.Multipart.C98_nul_refuted`, `Fly.Multipart.C98_field_name_refuted`, `Fly.Multipart.C98_other_parameters_refuted`, `Fly.Multipart.C98_no_blank_refuted`, `Fly.Multipart.C98_within_line_refuted`, `Fly.Multipart.C99_no_overread_partial`, `Fly.Multipart.C99_hyphen_at_end_refuted`, `Fly.Multipart.C99_truncated_refuted`, `Fly.Multipart.C99_cut_behind_boundary_refuted`, `Fly.Multipart.C99_cut_name_refuted`, `Fly.H2R.C100_request_understood_partial`, `Fly.H2R.C100_discarded_is_413_partial`, `Fly.H2R.C100_unknown_refused_partial`, `Fly.H2R.C100_second_method_wins_refuted`, `Fly.H2R.C101_always_answered_partial`, `Fly.H2R.C101_empty_accept_language_refuted`, `Fly.H2R.C101_form_without_body_refuted`, `Fly.H2R.C102_http1_coding_ignored_refuted`, `Fly.H2R.C103_same_answer_partial`, `Fly.H2R.C103_directory_refuted`, `Fly.H2B.C104_handler_body_partial`, `Fly.H2B.C104_file_partial`, `Fly.H2B.C104_frame_length_refuted`, `Fly.Log.C106_one_line_partial`, `Fly.Log.C106_log_read_back_partial`, `Fly.Log.C106_long_entry_refuted`, `Fly.Log.C107_entries_whole_partial`, `Fly.Log.C107_no_deadlock_partial`, `Fly.Log.C107_every_call_counts`, `Fly.Log.C107_old_log_lost`, `Fly.Log.C110_emergency_line_cut_refuted`, `Fly.Conn.C111_negotiation_partial`, `Fly.Conn.C111_name_of_255_hangs_refuted`, `Fly.Keep.C115_answers_in_order_partial`, `Fly.Keep.C115_pipelined_lost_refuted`, `Fly.Keep.C115_body_taken_for_request_refuted`, `Fly.Keep.C116_application_closes`, `Fly.Keep.C116_client_close_ignored_refuted`, `Fly.PyForm.C117_annotated_partial`, `Fly.PyForm.C117_taken_refuted`, `Fly.PyForm.C118_form_received_partial`, `Fly.PyForm.C118_repeated_refuted`, `Fly.PyForm.C119_content_type`, `Fly.PyForm.C119_refused_partial`, `Fly.PyForm.C119_server_error_refuted`, `Fly.PyForm.C119_raw_multipart_refuted`, `Fly.PyForm.C119_null_refuted`, `Fly.Codec.C120_gzip_complete`, `Fly.Codec.C120_gzip_always`, `Fly.Codec.C121_deflate_small_file_413_refuted`, `Fly.Codec.C122_br_file_cut_refuted`, `Fly.Codec.C123_preencode_gzip`, `Fly.H2L.C124_request_answered_partial`, `Fly.H2L.C124_get_answered_partial`, `Fly.H2L.C124_frames_behind_a_request_refuted`, `Fly.H2L.C125_answers_once_in_order_partial`, `Fly.H2L.C125_client_without_requests_refuted`, `Fly.H2L.C126_cancelled_request_blocks_refuted`, `Fly.H2L.C126_cancelled_empty_response_aborts_refuted`, `Fly.H2L.C127_closed_window_blocks_refuted`, `Fly.H2L.C128_goaway_never_sent_refuted`, `Fly.H2L.C130_only_arrived_bytes_partial`, `Fly.Start.C134_one_server`, `Fly.Start.C135_names_server_partial`, `Fly.Start.C135_daemon_refuted`, `Fly.Start.C136_no_restart_refuted`, `Fly.Start.C136_reload_ends_server_refuted`, `Fly.Start.C137_removes_own_only`, `Fly.Start.C138_descriptors_partial`, `Fly.Start.C138_succeeds_partial`, `Fly.Start.C138_low_descriptor_lost_refuted`, `Fly.Start.C140_leak_refuted`, `Fly.Start.C141_whole_blocks_partial`, `Fly.Start.C141_too_much_refuted`, `Fly.Watch.C142_growing_survives`, `Fly.Watch.C142_growing_known`, `Fly.Watch.C142_growing_catches_up`, `Fly.Watch.C143_calm_followed`, `Fly.Watch.C143_calm_told`, `Fly.Watch.C144_survives_partial`, `Fly.Watch.C144_short_lived_file_refuted`, `Fly.Watch.C144_written_then_removed_refuted`, `Fly.Watch.C145_noticed_partial`, `Fly.Watch.C145_subdirectories_unnoticed_refuted`, `Fly.Watch.C145_renamed_unnoticed_refuted`, `Fly.Dispatch.C146_ready_are_handled_once`, `Fly.Dispatch.C146_expired_are_handled_once`, `Fly.Dispatch.C147_failing_are_closed_once`, `Fly.Dispatch.C147_expired_are_removed`, `Fly.Dispatch.C147_removed_never_again`, `Fly.Dispatch.C148_others_are_left_alone`, `Fly.Dispatch.C148_watched_are_registered`, `Fly.H2A.C149_unconfigured_partial`, `Fly.H2A.C149_acknowledgement_overwrites_refuted`, `Fly.H2A.C149_window_closed_refuted`, `Fly.H2A.C149_stray_memory_refuted`, `Fly.H2A.C150_calm_partial`, `Fly.H2A.C150_second_ack_ignored`, `Fly.H2A.C150_overtaking_refuted`, `Fly.H2A.C150_overtaking_compliant_refuted`, `Fly.H2A.C151_given_back_partial`, `Fly.Signals.C154_worker_partial`, `Fly.Signals.C154_master_partial`, `Fly.Signals.C154_exact_partial`, `Fly.Signals.C154_child_ends_worker_refuted`, `Fly.Signals.C154_mild_signals_end_refuted`, `Fly.Signals.C156_all_blocked_refuted`, `Fly.Signals.C159_old_workers_gone_partial`, `Fly.Signals.C159_forgotten_worker_stays_refuted`, `Fly.Life.C161_loop_descriptors`, `Fly.Life.C162_no_growth_partial`, `Fly.Life.C162_grows_refuted`, `Fly.Life.C162_exhausted_refuted`, `Fly.Life.C164_reload_partial`, `Fly.Life.C164_recursion_refuted`, `Fly.Life.C165_never_again_refuted`, `Fly.Life.C165_default_content_refuted`, `Fly.Life.C166_configuration_partial`, `Fly.Life.C166_production_refuted`, `Fly.Life.C166_own_file_refuted`, `Fly.Life.C167_failed_start_refuted`, `Fly.Points.C168_nothing_else`, `Fly.Points.C169_starts_partial`, `Fly.Points.C169_two_slashes_refuted`, `Fly.Points.C170_more_do_not_start`, `Fly.Points.C171_files_dropped_partial`, `Fly.Points.C171_only_one_refuted`, `Fly.Points.C171_one_of_several_refuted`, `Fly.Trip.C172_round_trips_partial`, `Fly.Trip.C172_two_writes_refuted`, `Fly.Trip.C172_head_refuted`, `Fly.Trip.C172_inner_parameter_refuted`, `Fly.Trip.C173_last_response_partial`, `Fly.Trip.C173_two_writes_refuted`, `Fly.PyCors.C174_decorated_route`, `Fly.PyCors.C174_other_routes`, `Fly.PyCors.C175_preflight_partial`, `Fly.PyCors.C175_origin_refuted`, `Fly.H2Trip.C177_h2_round_trips_partial`, `Fly.H2Trip.C177_window_refuted`, `Fly.H2Trip.C177_frame_size_refuted`, `Fly.H2Trip.C177_coded_too_long_refuted`, `Fly.H2Trip.C177_head_refuted`, `Fly.H2Trip.C177_client_table_refuted`, `Fly.H2Trip.C177_malformed_partial`, `Fly.H2Trip.C177_discarded_partial`, `Fly.PyText.C178_same_but_capitals`, `Fly.PyText.C178_text_changed_refuted`, `Fly.PyText.C178_other_responses_refuted`, `Fly.PyText.C178_value_changed_refuted`, `Fly.WStart.C180_unreadable_refuted`, `Fly.WStart.C181_never_serves_refuted`, `Fly.Session.C182_cookie_returns_partial`, `Fly.Session.C182_remove_refuted`, `Fly.Session.C182_equals_refuted`, `Fly.Session.C182_names_refuted`, `Fly.Date.C183_http_date`, `Fly.Date.C183_date_field`, `Fly.Date.C183_date_field_h2`, `Fly.Date.C183_last_modified`, `Fly.Date.C184_english_partial`, `Fly.Date.C184_locale_refuted`, `Fly.Site.C185_site_round_trips_partial`, `Fly.Site.C185_identity_refuted`, `Fly.Site.C185_unaccepted_form_refuted`, `Fly.Site.C186_present_content_partial`, `Fly.Site.C186_memory_sent_refuted`, `Fly.Site.C186_cut_refuted`, `Fly.Site.C186_old_form_refuted`, `Fly.Site.C187_allow_omits_nothing`, `Fly.Site.C188_allow_lists_no_more_partial`, `Fly.Site.C188_prefix_listed_refuted`, `Fly.Serve.C189_serial_order_partial`, `Fly.Serve.C190_real_time_partial`, `Fly.Serve.C191_answered_partial`, `Fly.Serve.C191_stays_up_partial`, `Fly.Serve.C191_one_stops_all_refuted`, `Fly.Serve.C191_long_line_stops_all_refuted`, `Fly.H2S.C192_error_codes_partial`, `Fly.H2S.C192_header_block_partial`, `Fly.H2S.C192_data_state_partial`, `Fly.H2S.C192_oversized_code_refuted`, `Fly.H2S.C192_ack_payload_refuted`, `Fly.BodyLen.C193_expect`, `Fly.BodyLen.C193_no_length`, `Fly.BodyLen.C193_length_partial`, `Fly.BodyLen.C193_two_lengths_refuted`, `Fly.BodyLen.C193_trailing_text_refuted`, `Fly.BodyLen.C193_negative_refuted`, `Fly.H2Site.C194_h2_files_partial`, `Fly.H2Site.C194_empty_file_refuted`, `Fly.H2Site.C194_long_file_refuted`, `Fly.H2Site.C194_stored_form_refuted`, `Fly.Nego.C195_negotiated_partial`, `Fly.Nego.C195_http2_negotiated_partial`, `Fly.Nego.C195_refused_form_sent_refuted`, `Fly.Nego.C195_asterisk_refuted`, `Fly.Nego.C195_identity_taken_refuted`, `Fly.Nego.C195_media_not_compared_refuted`, `Fly.Refuse.C195_quality_one_refuted`, `Fly.Refuse.C196_bad_fields_partial`, `Fly.Refuse.C196_connection_ends`, `Fly.Access.C197_log_agrees_partial`, `Fly.Access.C197_last_response_partial`, `Fly.Access.C197_unwritten_not_logged`, `Fly.H2Refuse.C198_refused_alone_partial`, `Fly.H2Wire.C199_frames_answered_partial`, `Fly.H2Access.C200_access_log_h2_partial`, `Fly.H2Access.C200_query_refuted`, `Fly.H2Access.C200_closed_window_refuted`, `Fly.H2Serve.C201_h2_serial_order_partial`, `Fly.H2Serve.C202_connections_apart_partial`, `Fly.H2Any.C203_nothing_after_end`, `Fly.H2Any.C203_one_response_partial`, `Fly.H2L.C204_waiting_response_refuted`, `Fly.H2Wire.C206_no_padding_partial`, `Fly.H2Wire.C206_padded_headers_refuted`, `Fly.H2Wire.C206_padded_data_refuted`, `Fly.H2Feed.C207_frames_in_order_partial`, `Fly.H2Feed.C207_frames_at_once_partial`, `Fly.H2Feed.C207_all_frames_partial`, `Fly.H2Feed.C207_long_frame_refused_partial`, `Fly.H2Feed.C207_places_partial`, `Fly.H2Feed.C207_requests_answered_partial`, `Fly.H2Buf.C208_frames_in_order_partial`, `Fly.H2Buf.C208_all_frames_partial`, `Fly.H2Buf.C208_no_overflow_partial`, `Fly.H2Buf.C208_wrong_preface_refused_partial`, `Fly.H2Buf.C208_allowed_frame_overflows_refuted`, `Fly.H2Buf.C208_requests_answered_partial`, `Fly.H2Buf.C208_long_frame_refused_partial`, `Fly.H2Buf.C208_split_preface_refused_refuted`, `Fly.H2Buf.C208_pipelined_requests_overflow_refuted`, `Fly.H2A.C209_frames_released_once_partial`, `Fly.H2A.C209_waiting_and_unacknowledged_refuted`, `Fly.H2A.C209_client_leaves_refuted`, `Fly.H2A.C209_overtaken_refuted`, `Fly.H2Credit.C210_credit_reaches_client_partial`, `Fly.H2Credit.C210_begun_update_replaced_refuted`, `Fly.H2Credit.C210_wrong_increment_refuted`, `Fly.H2Credit.C210_stopped_send_repeats_refuted`
* propext, Quot.sound: `Fly.Buffer.C05_two_initial_chunks_lose_data_refuted`, `Fly.H2.C07_written_header_layout`, `Fly.Hpack.C08_encode_small_partial`, `Fly.Hpack.C08_encode_large_iff`, `Fly.Hpack.C08_encode_128_wrong_refuted`, `Fly.Hpack.C08_large_integer_undefined_refuted`, `Fly.Hpack.C09_dynamic_table_bounded`, `Fly.Send.C15_windows_account_for_bytes`, `Fly.Send.C15_window_exceeded_refuted`, `Fly.Send.C15_frame_size_exceeded_refuted`, `Fly.Send.C15_empty_body_never_ended_refuted`, `Fly.Send.C16_h2_body_exactly_once`, `Fly.Send.C16_h2_frame_exactly_once_partial`, `Fly.Send.C16_h1_exactly_once_partial`, `Fly.Send.C16_h2_data_header_tls_partial`, `Fly.Send.C16_h2_frame_resent_refuted`, `Fly.Send.C16_h1_partial_write_refuted`, `Fly.Send.C16_h1_blocked_write_refuted`, `Fly.Send.C16_h2_data_header_resent_refuted`, `Fly.Response.C17_serialized_layout`, `Fly.Response.C17_client_reads_response`, `Fly.Response.C17_header_injection_refuted`, `Fly.Response.C19_status_line_partial`, `Fly.Response.C19_number_to_status`, `Fly.Route.C24_bytes_behind_path_refuted`, `Fly.Req.C26_alpn_recognised_is_prefix`, `Fly.Encode.C27_refused_precoded_sent_refuted`, `Fly.Encode.C27_no_field`, `Fly.Mime.C29_absent`, `Fly.Lang.C30_at_most_one_byte`, `Fly.Mount.C31_third_file_lost_refuted`, `Fly.Mount.C33_nested_refuted`, `Fly.Cache.C34_any_date_refuted`, `Fly.Cache.C35_text`, `Fly.PyRoute.C44_table`, `Fly.PyRoute.C44_register`, `Fly.PyRoute.C44_path_unique`, `Fly.PyArgs.C47_partial`, `Fly.PyArgs.C47_request`, `Fly.PyArgs.C47_capital_refuted`, `Fly.PyArgs.C47_valueless_refuted`, `Fly.PyArgs.C47_kwargs_refuted`, `Fly.PyArgs.C48_equals_refuted`, `Fly.PyArgs.C48_plus_refuted`, `Fly.ReqEvent.C50_full_buffer`, `Fly.Response.C53_digits_reserved_exact`, `Fly.H2A.C56_acknowledged_partial`, `Fly.H2.C57_ping_reply_is_goaway_refuted`, `Fly.H2.C59_one_setting_payload_partial`, `Fly.H2.C59_only_last_setting_sent_refuted`, `Fly.Hpack.C60_literal_across_chunks_refuted`, `Fly.Hpack.C61_response_headers_partial`, `Fly.Hpack.C61_prefix_name_changed_refuted`, `Fly.Hpack.C61_prefix_value_changed_refuted`, `Fly.Hpack.C61_wrong_table_consulted_refuted`, `Fly.Send.C66_header_block_framing`, `Fly.Req.C68_http2_asterisk_only_options`, `Fly.ReqEvent.C71_http2_version_crashes_refuted`, `Fly.Route.C72_allow_text`, `Fly.Route.C72_allow_complete`, `Fly.Route.C72_allow_sound_partial`, `Fly.Route.C72_allow_prefix_refuted`, `Fly.Lang.C74_absent`, `Fly.Event.C76_busy_loop_starves_refuted`, `Fly.Cache.C77_partial`, `Fly.Cache.C77_old_file_refuted`, `Fly.Scan.C79_partial`, `Fly.Scan.C79_limit_refuted`, `Fly.Scan.C80_dangling_link_refuted`, `Fly.Scan.C80_long_path_refuted`, `Fly.Scan.C81_stale_refuted`, `Fly.Master.C82_masks`, `Fly.PyArgs.C90_special_refuted`, `Fly.PyArgs.C90_type_refuted`, `Fly.PyArgs.C91_bool_refuted`, `Fly.PyBridge.C94_unknown_content_type_undefined_refuted`, `Fly.PyBridge.C94_empty_field_name_undefined_refuted`, `Fly.Multipart.C99_other_content_type_refuted`, `Fly.H2R.C100_incomplete_refused_partial`, `Fly.H2R.C100_https_seen_as_http_refuted`, `Fly.H2R.C101_coding_without_body_refuted`, `Fly.H2R.C101_nameless_field_refuted`, `Fly.H2R.C102_plain_body_delivered_partial`, `Fly.H2R.C102_encoded_body_lost_refuted`, `Fly.H2R.C102_codings_refuted`, `Fly.H2B.C104_file_over_tls_overruns_refuted`, `Fly.H2B.C104_any_larger_file_overruns_refuted`, `Fly.H2B.C104_truncated_file_spins_refuted`, `Fly.H2B.C104_grown_file_breaks_framing_refuted`, `Fly.H2B.C104_default_content_cut_refuted`, `Fly.H2B.C105_client_ends_worker_refuted`, `Fly.H2B.C105_signal_undefined_refuted`, `Fly.Log.C106_request_line_shown`, `Fly.Log.C106_h2_request_line_partial`, `Fly.Log.C106_h2_query_cut_refuted`, `Fly.Log.C106_h2_forged_entry_refuted`, `Fly.Log.C106_partial_write_refuted`, `Fly.Log.C107_old_log_overwritten_refuted`, `Fly.Log.C107_waits_for_ever_refuted`, `Fly.Log.C108_text_partial`, `Fly.Log.C108_error_value_refuted`, `Fly.Log.C108_utc_and_offset_partial`, `Fly.Log.C108_monotone_partial`, `Fly.Log.C108_minutes_refuted`, `Fly.Log.C108_summer_time_refuted`, `Fly.Log.C108_not_local_time_refuted`, `Fly.Log.C109_path_partial`, `Fly.Log.C109_destinations_partial`, `Fly.Log.C109_entry_without_file`, `Fly.Log.C109_unterminated_path_refuted`, `Fly.Log.C109_stderr_refuted`, `Fly.Log.C110_error_recorded_partial`, `Fly.Log.C110_emergency_partial`, `Fly.Conn.C111_protocol`, `Fly.Conn.C111_long_name_overread_refuted`, `Fly.Conn.C112_left_partial`, `Fly.Conn.C112_any_number_of_requests`, `Fly.Conn.C112_handshake_broken_off_refuted`, `Fly.Conn.C112_reset_before_request_refuted`, `Fly.Conn.C112_reset_in_request_refuted`, `Fly.Conn.C112_interim_response_refuted`, `Fly.Conn.C113_timeout_partial`, `Fly.Conn.C113_silent_client_refuted`, `Fly.Conn.C113_stalled_handshake_refuted`, `Fly.Conn.C114_bad_line_leaks_refuted`, `Fly.PyForm.C117_called`, `Fly.PyForm.C117_capital_refuted`, `Fly.PyForm.C118_unquoted_refuted`, `Fly.Codec.C121_deflate_body_partial`, `Fly.Codec.C121_deflate_body_crash_refuted`, `Fly.Codec.C121_deflate_files_refuted`, `Fly.Codec.C122_br_body_partial`, `Fly.Codec.C122_br_body_cut_refuted`, `Fly.H2L.C127_closed_window_spins_refuted`, `Fly.H2L.C129_failing_frame_ends_worker_refuted`, `Fly.H2L.C129_push_promise_ends_worker_refuted`, `Fly.H2L.C130_long_frame_refuted`, `Fly.H2P.C131_priorities_recorded_partial`, `Fly.H2P.C131_unknown_dependency_crashes_refuted`, `Fly.H2P.C131_heavier_stream_loops_refuted`, `Fly.H2P.C131_closed_stream_used_refuted`, `Fly.H2P.C132_weight_recorded_partial`, `Fly.H2P.C132_largest_weight_refuted`, `Fly.H2P.C133_first_dependent_partial`, `Fly.H2P.C133_second_dependent_refuted`, `Fly.H2P.C133_exclusive_adopts_nobody_refuted`, `Fly.Start.C134_one_owner`, `Fly.Start.C135_short_write_refuted`, `Fly.Start.C136_start_partial`, `Fly.Start.C136_failed_start_refuted`, `Fly.Start.C140_listening_partial`, `Fly.Start.C140_no_reason_refuted`, `Fly.Start.C141_endless_refuted`, `Fly.Start.C141_repeats_refuted`, `Fly.Start.C141_repeats_wrong_refuted`, `Fly.Watch.C142_change_is_told`, `Fly.H2A.C151_payloads_kept_refuted`, `Fly.FileType.C152_type_of_extension`, `Fly.FileType.C152_no_extension`, `Fly.FileType.C152_every_path`, `Fly.Pages.C153_page_of_status_partial`, `Fly.Pages.C153_page_411_ignored_refuted`, `Fly.Pages.C153_long_directory_refuted`, `Fly.Signals.C154_change_kills_starting_refuted`, `Fly.Signals.C155_actions_kept`, `Fly.Signals.C157_change_or_interrupt`, `Fly.Signals.C157_before_first_start`, `Fly.Signals.C158_terminated_partial`, `Fly.Signals.C158_cannot_be_terminated_refuted`, `Fly.Signals.C159_busy_worker_blocks_refuted`, `Fly.Life.C163_saved_actions_partial`, `Fly.Life.C165_corrected_partial`, `Fly.Points.C168_every_directory_mounted`, `Fly.Points.C169_symbolic_link_refuted`, `Fly.Points.C170_limit`, `Fly.Points.C171_master_refuted`, `Fly.Points.C171_worker_refuted`, `Fly.PyCors.C175_production_refuted`, `Fly.PyCors.C176_loads_partial`, `Fly.PyCors.C176_path_refuted`, `Fly.PyCors.C176_second_method_refuted`, `Fly.PyCors.C176_method_member_refuted`, `Fly.PyCors.C176_debug_route_refuted`, `Fly.PyText.C178_texts_kept_partial`, `Fly.PyText.C178_http1_texts_kept`, `Fly.WStart.C179_starts`, `Fly.WStart.C180_others_partial`, `Fly.WStart.C180_request_refuted`, `Fly.WStart.C181_descriptors_partial`, `Fly.WStart.C181_deaf_refuted`, `Fly.Access.status_begins`, `Fly.H2L.C204_goodbye_closes_partial`, `Fly.H2L.C204_nothing_sent_after_goodbye_refuted`, `Fly.H2L.C204_handler_again_refuted`, `Fly.H2L.C204_lower_stream_closes_refuted`, `Fly.H2Trip.C205_broken_off_partial`
