{"id": "C01", "title": "Ordered index behaves like a finite map", "statement": "After any history of insertions and deletions, looking a key up in the ordered index (used for timers, mounted files and pool blocks) finds an entry exactly when the key has been inserted and not deleted since, and returns the data given by the first insertion since the key was last absent.", "quantifier": "every finite sequence of insert/delete operations on keys of any totally ordered type", "why_tests_cant": "The set of histories is infinite and rebalancing takes different branches depending on the shape of the whole tree.", "anchors": ["src/rbtree.c:fly_rb_tree_insert", "src/rbtree.c:fly_rb_delete", "src/rbtree.c:fly_rb_node_data_from_key"]}
{"id": "C02", "title": "Ordered index stays balanced", "statement": "After any history of insertions and deletions an index with n entries never needs more than 2*log2(n+1) comparisons to answer a lookup.", "quantifier": "every finite sequence of insert/delete operations, any number of entries", "why_tests_cant": "A test sees a few shapes; the bound must hold for all shapes reachable by any history.", "anchors": ["src/rbtree.c:__fly_rb_tree_rebalance", "src/rbtree.c:__fly_rb_delete_rebalance"]}
{"id": "C03", "title": "Entry handles stay valid", "statement": "A handle obtained when inserting an entry (a timer's or a mounted file's node pointer) still denotes that same entry after any number of other entries have been inserted and deleted.", "quantifier": "every sequence of insert/delete operations with pairwise distinct keys, every live handle", "why_tests_cant": "Deletion moves entries between nodes; the corner cases depend on the tree shape.", "anchors": ["src/rbtree.c:fly_rb_delete", "src/rbtree.h:fly_rb_node"]}
{"id": "C04", "title": "Index entry count is exact", "statement": "The entry count reported by the index equals the number of entries that can be found in it, after any history.", "quantifier": "every finite sequence of insert/delete operations, duplicates included", "why_tests_cant": "Counter drift shows only after particular histories (duplicate insertions, two-child deletions).", "anchors": ["src/rbtree.c:fly_rb_tree_insert", "src/rbtree.c:fly_rb_delete"]}
{"id": "C05", "title": "Byte buffer is a faithful queue", "statement": "Bytes received into the connection buffer are read back in order and unchanged, however they are spread over chunks, and consuming n bytes removes exactly the first n.", "quantifier": "every sequence of append/consume operations, every chunk size and chunk limit", "why_tests_cant": "Bugs hide at chunk boundaries; the combinations of chunk size, lengths and offsets are unbounded.", "anchors": ["src/buffer.c:fly_update_buffer", "src/buffer.c:fly_buffer_chain_release_from_length", "src/buffer.c:fly_buffer_memcpy"]}
{"id": "C06", "title": "Buffer never exceeds its configured capacity", "statement": "The number of buffered bytes is always the number of received minus consumed bytes and never exceeds chunk limit times chunk size; when the limit is reached further growth is refused instead of overwriting data.", "quantifier": "every sequence of append/consume operations", "why_tests_cant": "Invariant over all histories.", "anchors": ["src/buffer.c:fly_buffer_add_chain", "src/buffer.c:fly_update_buffer"]}
{"id": "C07", "title": "HTTP/2 frame header codec round-trips", "statement": "Parsing the nine bytes written for a frame header gives back the same length, type, flags and stream identifier.", "quantifier": "every length < 2^24, type and flags < 256, stream identifier < 2^31, and every split of the bytes over buffer chunks", "why_tests_cant": "2^71 headers and all chunk splits cannot be enumerated.", "anchors": ["src/v2.c:fly_fh_setting", "src/v2.c:fly_hv2_length_from_frame_header", "src/v2.c:__fly_hv2_31bit"]}
{"id": "C08", "title": "HPACK integer codec round-trips", "statement": "Decoding the bytes emitted for an integer with an N-bit prefix returns that integer and consumes exactly those bytes.", "quantifier": "every integer below 2^31 and every prefix width 1..8, any following bytes", "why_tests_cant": "Unbounded integer range times prefix widths.", "anchors": ["src/v2.c:fly_hv2_set_integer", "src/v2.c:fly_hv2_integer"]}
{"id": "C09", "title": "HPACK dynamic table respects its size limit", "statement": "The sum of entry sizes (name length + value length + 32) in the header compression table never exceeds the negotiated maximum, and the recorded size equals that sum.", "quantifier": "every sequence of header insertions and size-limit changes", "why_tests_cant": "Invariant over all histories of headers.", "anchors": ["src/v2.c:fly_hv2_add_dtable", "src/v2.c:fly_hv2_dtable"]}
{"id": "C10", "title": "HPACK dynamic table evicts oldest first", "statement": "After any history the header compression table contains the most recently added headers, in order, and a lookup by index n returns the n-th most recent one.", "quantifier": "every sequence of insertions", "why_tests_cant": "Histories are unbounded; eviction may remove several entries at once.", "anchors": ["src/v2.c:fly_hv2_dynamic_add", "src/v2.c:fly_hv2_get_index_header_field"]}
{"id": "C11", "title": "Huffman-coded header strings decode to what the peer sent", "statement": "Decoding the HPACK Huffman encoding of a byte string gives back that byte string.", "quantifier": "every byte string of any length", "why_tests_cant": "Infinite set of strings; a wrong table entry only shows for strings containing the affected symbol.", "anchors": ["src/v2.c:huffman_codes", "src/v2.c:fly_hv2_huffman_decode"]}
{"id": "C12", "title": "Stream identifiers only grow and are odd", "statement": "The server accepts a new peer stream only if its identifier is odd and greater than every identifier accepted before on the connection; otherwise it is a connection error.", "quantifier": "every sequence of frames on a connection", "why_tests_cant": "Property of all histories.", "anchors": ["src/v2.c:fly_hv2_create_stream", "src/v2.c:fly_hv2_stream_create_init"]}
{"id": "C13", "title": "Concurrent streams are bounded", "statement": "The number of open streams on a connection never exceeds the announced maximum and equals the number of created minus closed streams.", "quantifier": "every sequence of stream creations and closures", "why_tests_cant": "Property of all histories.", "anchors": ["src/v2.c:fly_hv2_create_stream", "src/v2.c:fly_hv2_close_stream"]}
{"id": "C14", "title": "Window updates conserve the credited amount", "statement": "The WINDOW_UPDATE frames queued or sent for a stream add up to exactly the credit the server granted; each carries an amount between 1 and 2^31-1; merging waiting updates never disturbs the other frames waiting on the stream.", "quantifier": "every sequence of credits and every interleaving with sending", "why_tests_cant": "Unbounded amounts and histories; the merge loop can overflow 31 bits only for particular sums.", "anchors": ["src/v2.c:fly_send_window_update_frame"]}
{"id": "C15", "title": "Flow control is respected when sending", "statement": "The server never sends more DATA bytes than the peer's connection and stream windows allow.", "quantifier": "every response size and window state", "why_tests_cant": "Depends on all interleavings of window updates and writes.", "anchors": ["src/v2.c:fly_send_data_frame"]}
{"id": "C16", "title": "Response bytes reach the client exactly once and in order", "statement": "Whatever way the socket accepts the data (all at once, in pieces, with would-block in between), the bytes received by the client are exactly the serialized response.", "quantifier": "every response and every schedule of partial writes and would-block results", "why_tests_cant": "Schedules are unbounded; in tests on a loopback socket writes are nearly always complete.", "anchors": ["src/response.c:fly_response_send", "src/response.c:fly_response_event"]}
{"id": "C17", "title": "Serialized response is well-formed and its length exact", "statement": "The bytes prepared for sending are: status line, each header as 'name: value' CRLF in order, an empty line, then the body; and the announced total equals their number.", "quantifier": "every status, header list and body", "why_tests_cant": "Unbounded header lists and sizes.", "anchors": ["src/response.c:fly_response_set_send_ptr"]}
{"id": "C18", "title": "Content-Length equals the body length", "statement": "The Content-Length header sent with a response equals the number of body bytes sent.", "quantifier": "every response type (handler body, static file, pre-encoded file, error), encoding decision and size", "why_tests_cant": "Many combinations of encodings and sizes; wrong only in rare combinations.", "anchors": ["src/response.c:fly_response_event", "src/header.c:fly_add_content_length"]}
{"id": "C19", "title": "Status line shows the right code and reason", "statement": "For each status the framework supports, the response line carries that number and a matching reason phrase, and converting number to status and back is the identity.", "quantifier": "every supported status code", "why_tests_cant": "A table property that must hold for all entries; tests check two or three.", "anchors": ["src/response.c:responses", "src/response.c:fly_status_code_from_long"]}
{"id": "C20", "title": "Header list operations", "statement": "Adding a header appends it, conditional add never duplicates a name, replace changes only the first header of that name, delete removes only the first, and the header count always equals the number of headers.", "quantifier": "every sequence of header operations", "why_tests_cant": "All histories.", "anchors": ["src/header.c:fly_header_add", "src/header.c:fly_header_addmodify", "src/header.c:fly_header_delete"]}
{"id": "C21", "title": "Request line parsing", "statement": "For every origin-form request line 'METHOD SP path[?query] SP HTTP/version CRLF' with a known method and version, the server extracts exactly that method, path, query and version.", "quantifier": "every path and query over the allowed characters, every method and version", "why_tests_cant": "Infinite language.", "anchors": ["src/request.c:__fly_parse_reqline"]}
{"id": "C22", "title": "Malformed request lines are refused", "statement": "A request line that does not match the HTTP grammar is answered with 400 and never reaches a handler.", "quantifier": "every byte sequence", "why_tests_cant": "Infinite language of malformed lines.", "anchors": ["src/request.c:__fly_parse_reqline"]}
{"id": "C23", "title": "Request line length limit", "statement": "A request line longer than the limit is answered with 414, shorter ones are not, however the bytes arrive.", "quantifier": "every byte sequence and arrival schedule", "why_tests_cant": "All lengths and schedules.", "anchors": ["src/request.c:fly_reqline_request"]}
{"id": "C24", "title": "Route lookup picks the first registered match", "statement": "A request is dispatched to the first registered route whose path and method match, and to none if no route matches.", "quantifier": "every set of routes, path and method", "why_tests_cant": "All combinations of registered routes.", "anchors": ["src/route.c:fly_found_route", "src/route.c:fly_match_param_uri"]}
{"id": "C25", "title": "Path parameters are bound to their URL segment", "statement": "For a route with path parameters, each parameter receives exactly the URL segment at its position.", "quantifier": "every route pattern and URL", "why_tests_cant": "Unbounded patterns and URLs.", "anchors": ["src/route.c:fly_match_param_uri", "src/route.c:fly_parse_path_params_from_request"]}
{"id": "C26", "title": "Method and version names are recognised exactly", "statement": "A token is recognised as a method (version) iff it is exactly one of the supported names, and the recognised value has that name.", "quantifier": "every byte string", "why_tests_cant": "Infinite inputs.", "anchors": ["src/method.c:fly_match_method_name_len", "src/version.c:fly_match_version_len"]}
{"id": "C27", "title": "Content-coding negotiation never picks a refused coding", "statement": "The content coding chosen for a response is one the client accepted with non-zero quality; if it accepts none the request is answered 406.", "quantifier": "every Accept-Encoding header value", "why_tests_cant": "Infinite set of header values.", "anchors": ["src/encode.c:__fly_decide_encoding", "src/encode.c:__fly_accept_encoding_parse"]}
{"id": "C28", "title": "Content-coding negotiation prefers the client's highest quality", "statement": "Among acceptable codings the one with the highest quality is chosen.", "quantifier": "every list of codings and qualities", "why_tests_cant": "Infinite set of lists.", "anchors": ["src/encode.c:__fly_decide_encoding"]}
{"id": "C29", "title": "Accept header quality values", "statement": "Any syntactically valid quality value (0, 0.x, 1, 1.0) in Accept is understood.", "quantifier": "every valid Accept header", "why_tests_cant": "Infinite set of headers.", "anchors": ["src/mime.c:__fly_accept_mime_parse"]}
{"id": "C30", "title": "Language/charset names never overflow their storage", "statement": "Parsing an Accept-Language or Accept-Charset value never writes outside the fixed-size name field.", "quantifier": "every header value", "why_tests_cant": "Memory safety over all inputs.", "anchors": ["src/lang.c:__fly_lname_cpy", "src/charset.c:__fly_cname_cpy"]}
{"id": "C31", "title": "Only mounted files are served", "statement": "A static request is answered with a file only if the file's path relative to its mount point equals the request path without leading slashes (or the path is empty and the file is the configured index).", "quantifier": "every set of mounted files and request path", "why_tests_cant": "Security property over all request paths.", "anchors": ["src/mount.c:fly_found_content_from_path", "src/mount.c:__fly_mount_search_cmp"]}
{"id": "C32", "title": "File name comparison is a total order", "statement": "The comparison used to index mounted files is a total order and reports equality exactly for identical names.", "quantifier": "every pair and triple of names", "why_tests_cant": "Infinite domain.", "anchors": ["src/mount.c:__fly_mount_search_cmp"]}
{"id": "C33", "title": "Removing a directory removes exactly its files", "statement": "When a watched directory disappears, exactly the files below it stop being served.", "quantifier": "every set of mounted files and directory name", "why_tests_cant": "Prefix coincidences only occur in particular name sets.", "anchors": ["src/mount.c:fly_inotify_rm_watch"]}
{"id": "C34", "title": "Conditional GET", "statement": "304 is answered iff the client's validator shows its copy to be current.", "quantifier": "every file time and header value", "why_tests_cant": "Infinite domain.", "anchors": ["src/cache.c:fly_if_modified_since", "src/cache.c:fly_if_none_match", "src/ftime.c:fly_cmp_imt_fixdate"]}
{"id": "C35", "title": "ETags distinguish contents", "statement": "Two files with different digests get different entity tags; equal digests get equal tags.", "quantifier": "every pair of digests", "why_tests_cant": "2^256 pairs.", "anchors": ["src/cache.c:__fly_md5_from_hash"]}
{"id": "C36", "title": "Timers: every expired connection is detected", "statement": "At each turn of the event loop every registered timer whose deadline has passed is marked expired.", "quantifier": "every set of timers and current time", "why_tests_cant": "All timer sets and tree shapes.", "anchors": ["src/event.c:__fly_expired_from_rbtree", "src/event.c:__fly_update_event_timeout"]}
{"id": "C37", "title": "Timers never fire early", "statement": "A timer is never marked expired before its deadline.", "quantifier": "every set of timers and current time", "why_tests_cant": "Sub-second timing differences are not reproducible in tests.", "anchors": ["src/event.c:__fly_expired_from_rbtree"]}
{"id": "C38", "title": "Event loop waits for the nearest deadline", "statement": "The poll timeout is the time to the smallest deadline among registered timers, 0 if passed, infinite if there is none.", "quantifier": "every set of timers and current time", "why_tests_cant": "All timer sets.", "anchors": ["src/event.c:__fly_nearest_event", "src/event.c:fly_event_handler"]}
{"id": "C39", "title": "Event registration bookkeeping", "statement": "After any sequence of register, modify and unregister, exactly the registered events with a finite timeout are in the timer index, each once, under its current deadline.", "quantifier": "every sequence of operations", "why_tests_cant": "All histories.", "anchors": ["src/event.c:fly_event_register", "src/event.c:fly_event_unregister"]}
{"id": "C40", "title": "Time arithmetic", "statement": "Adding a timeout to the current time and subtracting times keep microseconds in [0,10^6) and agree with integer arithmetic on microseconds; time comparison agrees with it too.", "quantifier": "every pair of normalised times", "why_tests_cant": "Infinite domain, carries and borrows.", "anchors": ["src/event.c:__fly_add_time_from_now", "src/event.c:fly_sub_time", "src/event.c:fly_cmp_time"]}
{"id": "C41", "title": "Configuration file", "statement": "Every line 'name = value' of a known item sets that item (the last one wins); comments and blank lines are ignored; a file with an unknown item or a malformed line is refused.", "quantifier": "every configuration file", "why_tests_cant": "Infinite set of files.", "anchors": ["src/conf.c:fly_parse_config_file", "src/conf.c:fly_config_item_search"]}
{"id": "C42", "title": "Memory pool", "statement": "Every live block handed out by a pool is distinct and usable until freed; freeing a block twice or an unknown block is harmless; deleting the pool frees every live block exactly once.", "quantifier": "every sequence of allocations and frees", "why_tests_cant": "All histories.", "anchors": ["src/alloc.c:fly_pballoc", "src/alloc.c:fly_pbfree", "src/alloc.c:fly_delete_pool"]}
{"id": "C43", "title": "Worker processes are kept at the configured number", "statement": "Whenever workers die, the master re-creates them so that after handling the notifications the number of workers equals the configured number, and never exceeds it.", "quantifier": "every sequence of worker deaths", "why_tests_cant": "All interleavings of deaths.", "anchors": ["src/master.c:__fly_workers_rebalance", "src/master.c:__fly_master_worker_spawn", "src/master.c:fly_remove_worker"]}
{"id": "C44", "title": "Application routes are unique", "statement": "The Python application never holds two routes with the same path and method; registering a duplicate is refused and leaves the table unchanged; repeated slashes are collapsed.", "quantifier": "every sequence of registrations", "why_tests_cant": "All histories.", "anchors": ["fly/route.py:Route.register_route"]}
{"id": "C45", "title": "Default response headers never override handler headers", "statement": "Default (CORS) headers are added to a response only when the handler did not already set a header of that name (case-insensitively), and all other headers are kept.", "quantifier": "every response header list and default header list", "why_tests_cant": "Infinite domain.", "anchors": ["fly/_base.py:_BaseRoute.handler"]}
{"id": "C46", "title": "Set-Cookie value", "statement": "The cookie header consists of name=value followed by exactly the requested attributes, separated by '; '.", "quantifier": "every name, value and attribute combination", "why_tests_cant": "Infinite domain.", "anchors": ["fly/cookie.py:header_value_from_cookie"]}
{"id": "C47", "title": "Handler argument binding order", "statement": "An unannotated handler parameter is bound to the path parameter of that name, else query, else cookie, else header; otherwise the call fails.", "quantifier": "every request and parameter name", "why_tests_cant": "Infinite domain.", "anchors": ["fly/_parse.py:RequestParser.parse_func_args"]}
{"id": "C48", "title": "Query string parsing", "statement": "Each name=value pair of the query string is visible to the handler under its decoded name with its decoded value.", "quantifier": "every query string", "why_tests_cant": "Infinite domain.", "anchors": ["fly/_parse.py:RequestParser._parse_query"]}
{"id": "C49", "title": "CORS configuration covers every route", "statement": "After applying application-wide CORS each non-OPTIONS route without an OPTIONS route gets one and the CORS headers.", "quantifier": "every route table", "why_tests_cant": "All tables; the table is modified while it is traversed.", "anchors": ["fly/cors.py:_Cors.apply_route"]}
{"id": "C50", "title": "Requests larger than the limit never reach a handler", "statement": "A request whose declared body is larger than the configured maximum is answered 413 (or 417 with Expect) and its body is never given to a handler; a handler only ever sees complete bodies.", "quantifier": "every declared length, limit and arrival schedule", "why_tests_cant": "All schedules.", "anchors": ["src/request.c:fly_request_event_handler"]}
{"id": "C51", "title": "Response selection for static content", "statement": "With no matching route: an existing file requested with GET gives 200 or 304, with another method 405, a missing file 404.", "quantifier": "every request and file set", "why_tests_cant": "All combinations of the conditions.", "anchors": ["src/request.c:fly_request_event_handler"]}
{"id": "C52", "title": "Percent-encoding and character classes", "statement": "The request-line parser accepts a path character exactly if RFC 3986 allows it there.", "quantifier": "every byte and byte sequence", "why_tests_cant": "Full byte domain and sequences.", "anchors": ["src/request.c:__fly_is_pchar", "src/request.c:__fly_pct_encoded"]}
{"id": "C53", "title": "Decimal length formatting", "statement": "The number of digits reserved for a decimal Content-Length equals the digits printed, so header values are never truncated.", "quantifier": "every non-negative length", "why_tests_cant": "Unbounded.", "anchors": ["src/math.c:fly_number_digits", "src/header.c:fly_add_content_length"]}
{"id": "C54", "title": "Queues and lists", "statement": "Pushing and removing elements of an intrusive list keeps forward and backward links consistent, preserves the order of the others, and the queue count equals its length.", "quantifier": "every sequence of operations", "why_tests_cant": "All histories and aliasing patterns.", "anchors": ["src/bllist.h", "src/queue.h"]}
{"id": "C55", "title": "HTTP/2 connection preface", "statement": "An HTTP/2 connection is accepted exactly if the first 24 bytes the client sends are the connection preface, however the bytes are split over reads; as long as fewer bytes have arrived and they agree with it, the server waits.", "quantifier": "every byte stream and every way the network splits it", "why_tests_cant": "All splits of the stream, all chunk boundaries and all contents of recycled memory.", "anchors": ["src/v2.c:fly_hv2_init_connection_preface", "src/buffer.c:fly_buffer_memcmp"]}
{"id": "C56", "title": "Peer settings are applied as the RFC says", "statement": "Each setting received in a SETTINGS frame takes effect in order with the value the peer sent; illegal values end the connection with the prescribed error and legal values never do.", "quantifier": "every list of settings and every split of the payload over buffer chunks", "why_tests_cant": "2^48 settings times lists times splits.", "anchors": ["src/v2.c:fly_hv2_peer_settings"]}
{"id": "C57", "title": "PING is answered by a PING acknowledgement", "statement": "The answer to a PING is a PING frame with the ACK flag and the same eight bytes.", "quantifier": "every payload and split over chunks", "why_tests_cant": "2^64 payloads.", "anchors": ["src/v2.c:fly_send_ping_frame", "src/v2.c:fly_opaque_data"]}
{"id": "C58", "title": "GOAWAY and RST_STREAM carry the right stream and code", "statement": "A GOAWAY names the highest handled stream and the error code; an RST_STREAM is sent on the stream it resets with its error code.", "quantifier": "every stream id and error code", "why_tests_cant": "2^63 combinations.", "anchors": ["src/v2.c:fly_send_goaway_frame", "src/v2.c:fly_send_rst_stream_frame"]}
{"id": "C59", "title": "The server's SETTINGS frame announces every configured setting", "statement": "The payload of the server's SETTINGS frame is the list of configured identifier/value pairs in wire form.", "quantifier": "every list of settings", "why_tests_cant": "All values and list lengths.", "anchors": ["src/v2.c:fly_settings_frame_payload_set"]}
{"id": "C60", "title": "HTTP/2 header blocks mean what RFC 7541 says", "statement": "Every header block a conforming client may send is decoded to exactly the list of names and values RFC 7541 assigns to it, with the dynamic table following the RFC across blocks.", "quantifier": "every list of field representations, every dynamic table history, every split of the block over buffer chunks", "why_tests_cant": "Lists of representations times table histories times splits.", "anchors": ["src/v2.c:fly_parse_headers", "src/v2.c:__fly_hv2_add_header_by_indexname", "src/v2.c:__fly_hv2_add_header_by_index", "src/v2.c:__fly_hv2_add_header_by_name"]}
{"id": "C61", "title": "HTTP/2 response headers arrive unchanged", "statement": "The header block sent for a response decodes, for an RFC 7541 client, to exactly the response's headers in order.", "quantifier": "every list of response headers and every dynamic table state", "why_tests_cant": "All names and values; prefix relations with table entries.", "anchors": ["src/v2.c:__fly_payload_from_headers", "src/v2.c:fly_header_add_v2", "src/v2.c:fly_hv2_set_integer"]}
{"id": "C62", "title": "Nothing is processed after GOAWAY", "statement": "Once the server has sent GOAWAY or given up an HTTP/2 connection, later frames have no effect: nothing is sent, no stream is opened, no request is answered; and the server gives up only for errors RFC 7540 names.", "quantifier": "every history of frames before and after", "why_tests_cant": "Property of all histories.", "anchors": ["src/v2.c:fly_hv2_request_event_handler", "src/v2.c:__fly_hv2_send_error"]}
{"id": "C63", "title": "HTTP/2 requests are answered exactly when complete", "statement": "A request is answered once, only after the client ended both its headers and its stream, with exactly the headers the client sent on that stream in order; every complete request is answered; no frame makes the server misbehave.", "quantifier": "every history of frames on a connection, interleaved over streams", "why_tests_cant": "Interleavings of frames over streams are unbounded.", "anchors": ["src/v2.c:fly_hv2_request_event_handler", "src/v2.c:fly_hv2_response_event_handler"]}
{"id": "C64", "title": "HTTP/2 request bodies arrive intact", "statement": "The body the application sees is the concatenation of the DATA payloads (without padding) of the request's stream.", "quantifier": "every history of frames, every split of the body over DATA frames", "why_tests_cant": "All splits and interleavings.", "anchors": ["src/v2.c:fly_hv2_parse_data"]}
{"id": "C65", "title": "Received DATA is credited back", "statement": "For every DATA frame taken the server returns its flow-controlled length with WINDOW_UPDATE on the connection and on the stream, so that a client is never starved.", "quantifier": "every history of frames", "why_tests_cant": "A leak of one byte per frame shows only after tens of thousands of frames.", "anchors": ["src/v2.c:fly_hv2_parse_data", "src/v2.c:fly_send_window_update_frame"]}
{"id": "C66", "title": "Response headers are framed correctly", "statement": "The header block of every HTTP/2 response is carried by one HEADERS frame followed by CONTINUATION frames, whose payloads concatenate to the block, END_HEADERS being set on the last only, and no frame being larger than the maximum frame size.", "quantifier": "every list of response header fields and every maximum frame size", "why_tests_cant": "The split points depend on the sizes of all fields; only long header lists reach the second frame.", "anchors": ["src/v2.c:fly_send_headers_frame", "src/v2.c:__fly_send_headers_frame"]}
{"id": "C67", "title": "Connection persistence follows the headers", "statement": "After a response the connection is closed iff the client or the response asked for it with 'Connection: close'.", "quantifier": "every request and response header list", "why_tests_cant": "Header lists are unbounded and names are case-insensitive; a test sees one spelling.", "anchors": ["src/header.c:fly_connection", "src/response.c:fly_after_response"]}
{"id": "C68", "title": "HTTP/2 request targets", "statement": "For every HTTP/2 request the :path value is split at its first '?' into the path used for routing and the query string.", "quantifier": "every path and query allowed by RFC 3986, including percent-encoded bytes", "why_tests_cant": "Infinite language; percent-encoding changes byte counts.", "anchors": ["src/request.c:fly_hv2_request_target_parse"]}
{"id": "C69", "title": "Request header fields are delivered exactly", "statement": "Every header field of an HTTP/1 request written in the RFC 7230 grammar reaches the application, in order, with its name (lower-cased) and its exact value, and the body begins exactly behind the empty line.", "quantifier": "every list of header fields, every body, every chunking", "why_tests_cant": "Infinite language of names, values and splits.", "anchors": ["src/request.c:__fly_parse_header_line", "src/request.c:__fly_parse_header", "src/header.c:fly_header_addb"]}
{"id": "C70", "title": "Malformed header lines are refused", "statement": "A request whose header block contains a line that is no header field is answered 400, and what follows the header never changes how the header is read.", "quantifier": "every header block and every body", "why_tests_cant": "All malformed lines.", "anchors": ["src/request.c:__fly_parse_header_line", "src/request.c:__fly_request_header_operation"]}
{"id": "C71", "title": "The answer does not depend on how a request arrives", "statement": "A complete HTTP/1 request gets the same answer however its bytes are cut into pieces and wherever the connection pauses; no bytes, pauses, end of stream or error make the server misbehave while it reads a request.", "quantifier": "every request text, every split into recv results, every pause", "why_tests_cant": "There are exponentially many splits of one request; tests send it in one piece.", "anchors": ["src/request.c:fly_request_event_handler", "src/request.c:fly_request_receive", "src/buffer.c:fly_buffer_strstr_after"]}
{"id": "C72", "title": "The Allow field lists exactly the methods registered for the path", "statement": "When an answer carries an Allow field, it is the comma separated list of exactly the methods for which a route is registered for the requested path.", "quantifier": "every set of registered routes and every request path", "why_tests_cant": "All combinations of registered routes and requested paths.", "anchors": ["src/route.c:fly_valid_method", "src/header.c:fly_add_allow"]}
{"id": "C73", "title": "Parsing Accept-Encoding is memory safe and accepts every valid value", "statement": "Whatever an Accept-Encoding field contains, parsing it reads and writes only its own buffers, and every syntactically valid value is understood.", "quantifier": "every header value", "why_tests_cant": "Memory safety and acceptance over all inputs.", "anchors": ["src/encode.c:__fly_parse_ae", "src/encode.c:__fly_memcpy_name", "src/encode.c:__fly_quality_value_from_str"]}
{"id": "C74", "title": "Accept-Language and Accept-Charset are understood", "statement": "A syntactically valid Accept-Language or Accept-Charset field is understood: the request is refused with 406 exactly when every listed quality is 0, and otherwise the application sees exactly the listed names with their qualities, in order. Without the field everything is acceptable.", "quantifier": "every valid field value and every other header field of the request", "why_tests_cant": "Infinite language of field values.", "anchors": ["src/lang.c:__fly_al_parse", "src/lang.c:fly_accept_language", "src/charset.c:__fly_ac_parse", "src/charset.c:fly_accept_charset"]}
{"id": "C75", "title": "No Accept field harms the server", "statement": "No Accept header field, well-formed or not, makes the server read or write outside its buffers, follow a null pointer or end.", "quantifier": "every header value", "why_tests_cant": "Memory safety over all inputs.", "anchors": ["src/mime.c:__fly_accept_mime_parse", "src/mime.c:__fly_accept_subtype_from_str", "src/mime.c:__fly_accept_qvalue_from_str"]}
{"id": "C76", "title": "Expired connections are closed", "statement": "A connection whose deadline has passed is closed, through its expired handler, in the next turn of the event loop, whatever the other connections do, and a connection whose deadline was moved into the future is not.", "quantifier": "every history of registrations, every sequence of turns", "why_tests_cant": "Starvation needs arbitrarily long busy schedules.", "anchors": ["src/event.c:fly_event_handler", "src/event.c:__fly_expired_event", "src/event.c:fly_timeout_restart"]}
{"id": "C77", "title": "Every file gets an entity tag", "statement": "Whatever its times, a regular file in a mounted directory gets an entity tag (otherwise mounting its directory fails).", "quantifier": "every file name, modification time and change time", "why_tests_cant": "A test uses files written today; the failure needs a time of 0 or before 1970, as archives and reproducible builds produce.", "anchors": ["src/cache.c:__fly_md5_from_hash", "src/cache.c:__fly_number_of_digits_time", "src/mount.c:__fly_nftw"]}
{"id": "C78", "title": "Mounting makes everything below a directory available", "statement": "Mounting a directory makes every regular file below it available under its path relative to the directory, and nothing else.", "quantifier": "every directory tree, every mount path, every order of directory entries", "why_tests_cant": "Directory trees are unbounded in depth, width and in the names and path lengths that reach the boundaries of the buffers.", "anchors": ["src/mount.c:fly_mount", "src/mount.c:__fly_nftw", "src/mount.c:__fly_path_cpy_with_mp"]}
{"id": "C79", "title": "The configured number of files is a limit", "statement": "No more files are mounted than the configured maximum.", "quantifier": "every limit, every directory tree and every number of files mounted before", "why_tests_cant": "The limit is only tested at some points of the walk, so every shape of tree matters.", "anchors": ["src/mount.c:__fly_nftw", "src/mount.c:fly_file_max_limit"]}
{"id": "C80", "title": "After a change, workers serve what exists", "statement": "After a worker has handled a notice that mounted content changed, it serves exactly the files that exist below its mount points.", "quantifier": "every set of files registered before and every directory tree after the change", "why_tests_cant": "Tests change one file at a time; the claim ranges over all pairs of states of the file system, including links, permissions and replaced directories.", "anchors": ["src/worker.c:fly_worker_signal_change_mnt_content", "src/worker.c:__fly_work_add_nftw", "src/worker.c:__fly_work_del_nftw"]}
{"id": "C81", "title": "Responses describe the present file", "statement": "After a worker has handled a change notice, the length, date, tag and content it sends for a file are those of the present version.", "quantifier": "every sequence of modifications of a file and notices", "why_tests_cant": "The state kept of a file depends on the whole history of notices.", "anchors": ["src/worker.c:fly_check_mod_file", "src/mount.h:fly_pf_modified", "src/cache.c:fly_hash_update_from_parts_file_path"]}
{"id": "C82", "title": "Changing the application file reloads the application", "statement": "In debug mode the server loads the application again after its file was changed, and does not end; without debug mode a change of the file has no effect.", "quantifier": "every way of changing the file (writing, renaming, removing, changing its attributes), both modes", "why_tests_cant": "Which notifications one change makes depends on how an editor saves; tests of one way say nothing about the others.", "anchors": ["src/master.c:__fly_reload", "src/master.c:__fly_master_reload_filepath", "src/master.c:fly_master_setreload"]}
{"id": "C83", "title": "Ending the server ends its workers", "statement": "When the server is ended by a signal, every worker process that exists is told to end.", "quantifier": "every history of ends, stops and continuations of workers before the signal", "why_tests_cant": "The table of workers depends on the whole history of notifications, some of which the kernel merges.", "anchors": ["src/master.c:fly_master_signal_default_handler", "src/master.c:__fly_sigchld"]}
{"id": "C84", "title": "Exceptions in a handler become responses", "statement": "A handler that raises an HTTP exception is answered with that exception's status, text and headers; any other failure of a handler is answered with status 500, and the explanation is sent in debug mode only.", "quantifier": "every way a handler can end (value of any type, exception of any class) and every default header list", "why_tests_cant": "Handlers are arbitrary programs; the claim ranges over everything they can return or raise.", "anchors": ["fly/_base.py:_BaseRoute.handler"]}
{"id": "C85", "title": "CORS configuration in production", "statement": "In production the application-wide CORS headers and preflight routes are in force unless they were configured for debugging only, in which case none of them are.", "quantifier": "every route table and CORS configuration", "why_tests_cant": "Lists are changed while they are walked, so the effect depends on the order and number of routes.", "anchors": ["fly/route.py:remove_only_debug_headers", "fly/_base.py:remove_default_headers_with_debug", "fly/cors.py:_Cors._apply_route"]}
{"id": "C86", "title": "Debug routes are not served in production", "statement": "In production no route registered as a debug route is served, and all other routes are.", "quantifier": "every history of registrations and every CORS configuration", "why_tests_cant": "All histories; routes are added and removed while the table is walked.", "anchors": ["fly/route.py:_production_routes", "fly/app.py:Fly.route", "fly/app.py:_start_server"]}
{"id": "C87", "title": "No traceback reaches a client in production", "statement": "In production mode the answer to a request whose handler fails contains no traceback.", "quantifier": "every application, every failing handler, both ways of choosing production mode", "why_tests_cant": "The claim quantifies over all applications and failures, and depends on when the mode is chosen.", "anchors": ["fly/_base.py:_BaseRoute.handler", "fly/main.py:run", "fly/app.py:Fly.route"]}
{"id": "C88", "title": "Headers given to a response are sent", "statement": "Headers passed when a response object is made, or added later, are sent with it.", "quantifier": "every list of headers", "why_tests_cant": "Infinite domain.", "anchors": ["fly/response.py:Response.__init__", "fly/response.py:Response.add_header"]}
{"id": "C89", "title": "Cookies of a request are seen with their values", "statement": "Every cookie a client sends is seen by the application under its name with the value it was sent with.", "quantifier": "every list of cookies a client may hold", "why_tests_cant": "Cookie values are arbitrary texts; tests use plain words.", "anchors": ["fly/_parse.py:RequestParser.parse_cookie"]}
{"id": "C90", "title": "Form fields arrive as they were filled in", "statement": "A form body in the usual encoding is read back as the names and values the user entered, for every way of encoding them and every way of writing the content type.", "quantifier": "every list of fields with arbitrary Unicode text and every permitted encoding and content type", "why_tests_cant": "Infinite domain of texts and encodings.", "anchors": ["fly/_parse.py:_parse_application_x_www_form_urlencoded", "fly/_parse.py:_parse_data_form"]}
{"id": "C91", "title": "Typed path parameters", "statement": "A path parameter declared with a type is handed to the handler as the value its text denotes, and the request is answered with 404 when the text denotes none.", "quantifier": "every path text and every declared type", "why_tests_cant": "Infinite domain.", "anchors": ["fly/_parse.py:_get_path_params"]}
{"id": "C92", "title": "Command line options win over the configuration file", "statement": "An option given on the command line has its value, whatever the configuration file says; every item without an option has the value of the file, or its default.", "quantifier": "every configuration file and every set of option values", "why_tests_cant": "All files and option texts; the two are joined as text, so their ends and special characters matter.", "anchors": ["fly/main.py:run", "src/conf.c:fly_parse_config_file"]}
{"id": "C93", "title": "The application's own configuration file is used", "statement": "The configuration file an application names when it is created is in force when the application is started with the fly command, unless another one is named there.", "quantifier": "every configuration file and every set of options", "why_tests_cant": "All files; the effect is a whole configuration.", "anchors": ["fly/main.py:run", "fly/app.py:Fly.__init__"]}
{"id": "C94", "title": "What a handler returns is what the client receives", "statement": "A response object returned by a handler reaches the client with its status, its header fields in order, its content type and its body, completed only by the server's own fields; a text, bytes or None is received as a 200 response with that body.", "quantifier": "every status, list of header fields, content type and body, every method and both versions of HTTP", "why_tests_cant": "Handlers are arbitrary programs: the values they return form an infinite domain with many special values.", "anchors": ["src/pyserver.c:pyfly_route_handler", "src/request.c:fly_request_event_handler", "src/response.c:fly_response_event", "fly/response.py:Response"]}
{"id": "C95", "title": "Failures give 500 and oversize bodies 413", "statement": "A handler that fails, or returns a value of another kind, is answered with a complete 500 response; a body longer than the configured maximum is never sent, but answered with a complete 413 response.", "quantifier": "every way a handler can fail, every body and every limit", "why_tests_cant": "Infinite domain of values and limits.", "anchors": ["src/pyserver.c:pyfly_route_handler", "src/response.c:fly_500_response", "src/response.c:fly_413_response"]}
{"id": "C96", "title": "Content configured for a status is sent with it", "statement": "The content configured for a status is the body of every response with this status that has none of its own.", "quantifier": "every configured content and every response", "why_tests_cant": "All contents and statuses.", "anchors": ["src/response.c:fly_response_event", "src/response.c:fly_default_content_response"]}
{"id": "C97", "title": "A handler sees the request as it was sent", "statement": "The path, query, path parameters, header fields (in order), cookies and body given to a handler are those the client sent, and a request that cannot be represented is refused.", "quantifier": "every request, including every sequence of bytes in paths, queries and header fields", "why_tests_cant": "Sequences of bytes that are no UTF-8 are an infinite set with many boundaries.", "anchors": ["src/pyserver.c:pyfly_route_handler", "src/header.c:fly_check_cookie"]}
{"id": "C98", "title": "Multipart forms arrive as they were sent", "statement": "The parts of a multipart form are seen by the handler in order, each with its header fields and its content, for every boundary and every way of writing the content type that the standards permit.", "quantifier": "every boundary, every list of parts with arbitrary header fields and contents, every preamble and epilogue", "why_tests_cant": "Contents are arbitrary bytes that may resemble the delimiter in any way.", "anchors": ["src/body.c:fly_body_parse_multipart", "src/body.c:__fly_multipart_header_parse", "src/body.c:__fly_multipart_parse_line", "src/header.c:fly_is_multipart_form_data"]}
{"id": "C99", "title": "No request body harms the server", "statement": "No body, well-formed or not, and no content type makes the server read outside of its buffers or tables.", "quantifier": "every content type and every body", "why_tests_cant": "Memory safety over all inputs.", "anchors": ["src/body.c:fly_body_parse_multipart", "src/mime.c:fly_mime_type_from_strn"]}
{"id": "C100", "title": "HTTP/2 requests are understood, malformed ones refused", "statement": "A well-formed HTTP/2 request reaches the application function of its route with exactly the method, scheme, path, query, header fields and body sent; a request whose pseudo-header fields are missing, doubled, unknown, misplaced or invalid is refused with 400.", "quantifier": "every list of header fields and body, every order of the pseudo-header fields, every route table", "why_tests_cant": "Header lists are unbounded, and each name can be a prefix or extension of a known one.", "anchors": ["src/v2.c:fly_hv2_request_line_from_header", "src/v2.c:fly_hv2_response_event_handler", "src/scheme.c:fly_match_scheme_name"]}
{"id": "C101", "title": "Every HTTP/2 request is answered", "statement": "Whatever header fields and body a client sends in an HTTP/2 request, the server answers it and follows no null pointer.", "quantifier": "every list of header fields, with empty names and values, and every body or none", "why_tests_cant": "Memory safety over all inputs.", "anchors": ["src/v2.c:fly_hv2_response_event_handler", "src/lang.c:fly_accept_language", "src/body.c:fly_decode_nowbody", "src/header.c:__fly_content_encoding"]}
{"id": "C102", "title": "Encoded request bodies are decoded", "statement": "A request body sent with a supported content coding reaches the application decoded; one with an unsupported coding is refused with 415.", "quantifier": "every body, every coding, both protocols", "why_tests_cant": "All bodies and codings.", "anchors": ["src/body.c:fly_decode_nowbody", "src/header.c:fly_content_encoding", "src/encode.c:fly_supported_content_encoding"]}
{"id": "C103", "title": "Both protocols give the same answer", "statement": "The same request sent over HTTP/1.1 and over HTTP/2 gets the same status, file or application call.", "quantifier": "every request and every configuration of routes and files", "why_tests_cant": "Two implementations have to agree on every input.", "anchors": ["src/v2.c:fly_hv2_response_event_handler", "src/request.c:fly_request_event_handler"]}
{"id": "C104", "title": "HTTP/2 response bodies arrive as announced", "statement": "The content-length field, the length of the DATA frame and the payload sent agree, and the payload is the body, file or configured content, or its announced encoding, delivered once, over TLS or not, however the connection takes it.", "quantifier": "every body, file (also changed since the start), coding negotiation, threshold and every sequence of partial writes and blocking", "why_tests_cant": "Partial writes come in arbitrary sequences, and the sizes at which buffers end are not those of test files.", "anchors": ["src/v2.c:fly_hv2_response_event", "src/v2.c:__fly_send_data_fh", "src/v2.c:fly_send_data_frame"]}
{"id": "C105", "title": "A client that goes away harms only its own connection", "statement": "Whenever a client closes its connection while a body is sent to it over HTTP/2, or a signal arrives then, the worker goes on with its other connections.", "quantifier": "every point of the transfer and every kind of body", "why_tests_cant": "All points of failure in all transfers.", "anchors": ["src/v2.c:__fly_send_data_fh", "src/err.c:fly_error_error"]}
{"id": "C106", "title": "Each response is recorded by one line of the access log", "statement": "For each response the access log gets exactly one line with a time stamp, the peer, the request line, the server's address and the status, so that the file read line by line is the list of responses.", "quantifier": "every request (both protocols), address, status and every result of the write calls", "why_tests_cant": "Request lines are arbitrary bytes of any length chosen by clients; writes can be partial.", "anchors": ["src/response.c:__fly_response_logcontent", "src/response.c:fly_log_request_line_hv2", "src/log.c:__fly_write"]}
{"id": "C107", "title": "Log entries of all processes arrive whole and nothing recorded is lost", "statement": "However the processes are scheduled or killed, the log files hold the earlier content followed by the whole entries of each process in its order (of a killed process possibly the beginning of one more), and no process waits for ever to write.", "quantifier": "every number of processes, list of entries, schedule and point at which processes are killed", "why_tests_cant": "All interleavings and crash points.", "anchors": ["src/log.c:__fly_log_write", "src/log.c:__fly_log_lock", "src/err.c:__fly_write_to_log_info", "src/err.c:__fly_write_to_log_err"]}
{"id": "C108", "title": "Time stamps denote the time of the event", "statement": "The time stamp of a log entry denotes the instant of the event: the time shown, together with the offset shown, determines it.", "quantifier": "every instant and time zone, with and without summer time", "why_tests_cant": "All instants and zones; tests run in one zone.", "anchors": ["src/ftime.c:fly_logtime"]}
{"id": "C109", "title": "Log entries go where the configuration says", "statement": "Entries are written to the file of their kind in the configured directory, and to standard output and standard error exactly when configured, once each.", "quantifier": "every directory, entry and combination of options", "why_tests_cant": "All paths up to and beyond the limit, all combinations.", "anchors": ["src/log.c:__fly_access_log_path", "src/log.c:__fly_log_write_logcont", "src/err.c:__fly_write_to_log_err"]}
{"id": "C110", "title": "The reason why a process ended is recorded", "statement": "When an error ends a worker or the server, the error log gets one line with the process and the reason.", "quantifier": "every message and every kind of fatal error", "why_tests_cant": "Infinite domain of messages; memory safety.", "anchors": ["src/err.c:__fly_write_to_log_emerg", "src/err.c:__fly_write_to_log_err", "src/err.c:fly_emergency_verror"]}
{"id": "C111", "title": "The protocol of a connection is the one the client asked for", "statement": "Over TLS the server speaks HTTP/2 with a client that offers it, HTTP/1.1 otherwise; without TLS it speaks HTTP/1; a client that speaks TLS to a server without it, or the reverse, is refused. No list of offered protocols harms the server.", "quantifier": "every list of protocol names, every first byte, every number of waits and every division of the handshake", "why_tests_cant": "All lists of names of all lengths, all schedules of the handshake.", "anchors": ["src/ssl.c:__fly_ssl_alpn", "src/ssl.c:__fly_ssl_alpn_cmp", "src/connect.c:fly_recognize_protocol_of_connected", "src/version.c:fly_match_version_from_type"]}
{"id": "C112", "title": "One client's connection does not harm the others", "statement": "Whatever one client does, the worker goes on serving the others, uses no freed memory, and the connection is closed exactly once with everything it held.", "quantifier": "every history of a connection: results of accept, reads, handshake and writes, in every order and number", "why_tests_cant": "All histories of events, including failures at every point.", "anchors": ["src/connect.c:fly_accept_listen_socket_handler", "src/connect.c:fly_connect_release", "src/ssl.c:__fly_ssl_accept_event_handler", "src/request.c:fly_request_timeout_handler", "src/response.c:__fly_response_release_handler"]}
{"id": "C113", "title": "Silent clients are disconnected", "statement": "A client that is silent for longer than the configured time is disconnected, whatever it had sent before, and the server goes on.", "quantifier": "every history before the silence", "why_tests_cant": "The time can end at every point of every history.", "anchors": ["src/connect.c:fly_listen_socket_end_handler", "src/ssl.c:fly_accept_end_timeout_handler", "src/request.c:fly_request_timeout_handler", "src/response.c:fly_response_timeout_release_handler"]}
{"id": "C114", "title": "Connections leave no memory behind", "statement": "When a connection has ended, all memory of its requests is given back.", "quantifier": "every history of a connection", "why_tests_cant": "All histories; leaks show only after long use.", "anchors": ["src/response.c:fly_400_event_norequest", "src/request.c:fly_request_event_handler", "src/response.c:__fly_response_reuse_handler"]}
{"id": "C115", "title": "Requests on one connection are answered one by one, in order", "statement": "A client may send any number of requests on one connection, waiting for the responses or not: each gets exactly one response, the one it would get on a connection of its own, in order; bytes of a body are never taken for a request.", "quantifier": "every list of requests, every way they arrive in pieces and pauses, together or one after the other", "why_tests_cant": "All sequences of requests and all divisions of their bytes.", "anchors": ["src/response.c:fly_after_response", "src/response.c:__fly_response_reuse_handler", "src/connect.c:fly_connect_buffer_refresh", "src/request.c:fly_request_event_handler"]}
{"id": "C116", "title": "Connection: close is honoured", "statement": "When the client or the application says `Connection: close`, the connection is closed after the response.", "quantifier": "every request, response and way of arrival", "why_tests_cant": "All requests and histories.", "anchors": ["src/response.c:fly_after_response", "src/header.c:fly_connection"]}
{"id": "C117", "title": "Annotated parameters get what their annotation names", "statement": "A handler parameter annotated as header, cookie, query parameter, path parameter or body receives the value of that name from exactly that part of the request (the first one, converted as the route says), or None, independently of the other parameters.", "quantifier": "every request, every list of parameters with and without annotations", "why_tests_cant": "All combinations and orders of parameters and all requests.", "anchors": ["fly/_parse.py:RequestParser._check_with_annotation", "fly/_parse.py:RequestParser.parse_func_args"]}
{"id": "C118", "title": "Form parameters receive the fields of a multipart form", "statement": "A handler with a form parameter receives, for every multipart form a client sends, every field under its name with its content.", "quantifier": "every list of fields (names, file names, contents), boundary, preamble and epilogue", "why_tests_cant": "All forms and all bytes in them.", "anchors": ["fly/_parse.py:RequestParser._parse_multipart_form_data", "fly/_parse.py:RequestParser._parse_multipart_content_name", "src/body.c:fly_body_parse_multipart"]}
{"id": "C119", "title": "Forms that cannot be read are refused as the client's error", "statement": "When the body of a request does not fit the form parameter (missing, wrong type, malformed, invalid), the handler is not called and the client gets a 4xx response.", "quantifier": "every request, content type and body, every class of forms", "why_tests_cant": "All malformed bodies.", "anchors": ["fly/_parse.py:RequestParser._parse_data_form", "fly/_parse.py:RequestParser._get_data_form", "fly/_base.py:_BaseRoute.handler"]}
{"id": "C120", "title": "Responses encoded with gzip are complete", "statement": "When a response is sent with gzip, its content is the complete encoding of exactly the body or file and Content-Length is its length; a client gets an error only if the encoding is longer than the configured maximum (413) or the file cannot be read (500); encoding always ends.", "quantifier": "every body, file and offset, every maximum, every behaviour of the compression library within its manual, all contents of fresh memory", "why_tests_cant": "Where the output ends relative to the chunks of the buffer depends on the data in ways no test controls.", "anchors": ["src/encode.c:fly_gzip_encode", "src/buffer.c:fly_update_buffer", "src/response.c:fly_response_event"]}
{"id": "C121", "title": "Responses encoded with deflate are complete", "statement": "When a response is sent with deflate, its content is the complete encoding of exactly the body or file and Content-Length is its length, and the server goes on.", "quantifier": "every body and file, every behaviour of the compression library within its manual", "why_tests_cant": "The size of the encoding decides, and tests use small contents.", "anchors": ["src/encode.c:fly_deflate_encode", "src/response.c:fly_response_event"]}
{"id": "C122", "title": "Responses encoded with brotli are complete", "statement": "When a response is sent with brotli, its content is the complete encoding of exactly the body or file and Content-Length is its length.", "quantifier": "every body and file, every behaviour of the compression library within its manual", "why_tests_cant": "The size of the encoding decides, and tests use small contents.", "anchors": ["src/encode.c:fly_br_encode", "src/response.c:fly_response_event"]}
{"id": "C123", "title": "Files encoded in advance are complete", "statement": "The encoding stored for a file when it is found is the complete encoding of that file; only files whose size or encoding exceeds the maximum are refused with 413; only unreadable files make the scan fail.", "quantifier": "every file and maximum, every behaviour of the compression library within its manual", "why_tests_cant": "All contents and sizes.", "anchors": ["src/worker.c:fly_preencode_pf", "src/encode.c:fly_gzip_encode"]}
{"id": "C124", "title": "Every complete HTTP/2 request is answered, however it arrives", "statement": "Once a client has sent a complete HTTP/2 request, its response (headers and whole body) is sent, whatever the pieces in which the frames arrive, the turns of the event loop between them and the times at which the socket can be written.", "quantifier": "every history of the connection before, every division of the bytes and every schedule", "why_tests_cant": "All interleavings of arrivals, turns and writability.", "anchors": ["src/v2.c:fly_hv2_request_event_handler", "src/v2.c:fly_hv2_response_event", "src/event.c:fly_event_register"]}
{"id": "C125", "title": "SETTINGS and PING are answered", "statement": "Every SETTINGS frame is acknowledged and every PING answered, once each and in order.", "quantifier": "every list of frames and every schedule", "why_tests_cant": "All interleavings.", "anchors": ["src/v2.c:fly_send_settings_frame", "src/v2.c:fly_send_ping_frame", "src/v2.c:fly_state_send_frame"]}
{"id": "C126", "title": "A cancelled request does not affect the others", "statement": "After a client has cancelled a request with RST_STREAM, the other requests on the connection are answered, and the server goes on.", "quantifier": "every history with cancelled requests, every schedule", "why_tests_cant": "The point of cancellation can be anywhere in any history.", "anchors": ["src/v2.c:fly_send_data_frame", "src/v2.c:fly_hv2_responses"]}
{"id": "C127", "title": "A stream that may not send holds up nobody", "statement": "While the flow-control window of one stream is closed, the other responses are sent, and the server waits without using the processor.", "quantifier": "every history, every schedule", "why_tests_cant": "All histories of windows.", "anchors": ["src/v2.c:fly_send_data_frame", "src/v2.c:fly_hv2_responses"]}
{"id": "C128", "title": "A client is told why its connection is ended", "statement": "When the server ends an HTTP/2 connection because of an error, the client gets a GOAWAY frame with the reason.", "quantifier": "every history that ends with an error", "why_tests_cant": "All histories.", "anchors": ["src/v2.c:fly_hv2_goaway_handle", "src/v2.c:fly_send_goaway_frame"]}
{"id": "C129", "title": "No HTTP/2 client ends the worker", "statement": "Whatever frames a client sends, the worker goes on serving its other connections.", "quantifier": "every sequence of frames", "why_tests_cant": "All sequences of frames.", "anchors": ["src/v2.c:fly_hv2_request_event_handler", "src/err.c:fly_error_error"]}
{"id": "C130", "title": "Only bytes that have arrived are handled", "statement": "The server never takes bytes that the client has not sent for a frame or a part of one.", "quantifier": "every list of frames, every division of the bytes and every schedule", "why_tests_cant": "All divisions and schedules.", "anchors": ["src/v2.c:fly_hv2_request_event_handler", "src/v2.c:fly_hv2_request_event_blocking"]}
{"id": "C131", "title": "PRIORITY frames are harmless", "statement": "A PRIORITY frame is processed in bounded time and without undefined behaviour, whatever streams it names and whatever was received before; a dependency on a stream that does not exist counts as the default priority.", "quantifier": "every sequence of PRIORITY frames, weights and dependencies, with streams answered and closed in between", "why_tests_cant": "All sequences of frames; the failing ones need three or four frames in a certain order.", "anchors": ["src/v2.c:fly_hv2_priority_rebalance", "src/v2.c:__fly_hv2_priority_deps_add"]}
{"id": "C132", "title": "Stream weights are recorded as sent", "statement": "The weight recorded for a stream is the one the client gave, from 1 to 256.", "quantifier": "every weight octet", "why_tests_cant": "The whole domain must be covered, with its ends.", "anchors": ["src/v2.c:fly_hv2_weight", "src/v2.c:fly_hv2_request_event_handler"]}
{"id": "C133", "title": "Stream dependencies are recorded as sent", "statement": "A stream is recorded among the dependents of the stream it was said to depend on; an exclusive dependency takes over the former dependents.", "quantifier": "every connection and frame", "why_tests_cant": "All shapes of the dependency tree.", "anchors": ["src/v2.c:fly_hv2_priority_rebalance", "src/v2.c:__fly_hv2_priority_deps_add"]}
{"id": "C134", "title": "At most one server per pid file", "statement": "With pid files switched on, two servers started for the same pid file never run at the same time, however their starts interleave and whatever crashes, unless somebody deletes the file by hand.", "quantifier": "every history of starts, forks, ends and crashes of any number of processes and every interleaving of their system calls", "why_tests_cant": "Races between starting processes and crash points.", "anchors": ["src/master.c:fly_create_pidfile_noexit", "src/pyserver.c:__pyfly_configure"]}
{"id": "C135", "title": "The pid file names the running server", "statement": "While a server runs, its pid file contains its process number, so that it can be signalled.", "quantifier": "every history and interleaving, with and without daemon", "why_tests_cant": "All interleavings, and numbers of processes given by the system.", "anchors": ["src/master.c:fly_create_pidfile_noexit", "src/util.c:fly_daemon", "src/pyserver.c:__pyfly_run"]}
{"id": "C136", "title": "A stopped server can be started again", "statement": "After a server has stopped or a start has failed, a server can be started again; a reload of a changed application does not end the server.", "quantifier": "every history and every way of stopping", "why_tests_cant": "All histories with all ways of ending.", "anchors": ["src/master.c:fly_remove_pidfile", "src/master.c:fly_create_pidfile_noexit", "fly/app.py:_run"]}
{"id": "C137", "title": "Only the own pid file is removed", "statement": "The routine that removes the pid file deletes it exactly if it names the calling process.", "quantifier": "every process number and every content of the file", "why_tests_cant": "All contents.", "anchors": ["src/master.c:fly_remove_pidfile"]}
{"id": "C138", "title": "A daemon keeps its sockets and logs and nothing else", "statement": "After a server has become a daemon, its standard streams are /dev/null, the listening socket and the log files are what they were, and every other descriptor is closed.", "quantifier": "every table of descriptors, limit and set of kept descriptors", "why_tests_cant": "All tables of descriptors.", "anchors": ["src/util.c:fly_daemon", "src/context.h:is_fly_log_fd"]}
{"id": "C139", "title": "A failing daemon start is reported", "statement": "If a step of becoming a daemon fails, no server is started and the user is told.", "quantifier": "every combination of failing system calls", "why_tests_cant": "All combinations of failures, which tests cannot cause.", "anchors": ["src/util.c:fly_daemon", "src/pyserver.c:__pyfly_run"]}
{"id": "C140", "title": "The listening socket is made or nothing is left", "statement": "Opening the listening socket uses the first usable address and opens one descriptor; if it fails, no descriptor is left open and the application gets the reason.", "quantifier": "every list of addresses and every combination of failing calls", "why_tests_cant": "All lists of addresses and failures.", "anchors": ["src/server.c:fly_socket_init", "src/pyserver.c:pyfly_master_init"]}
{"id": "C141", "title": "The portable sendfile sends what is asked for", "statement": "Where the system has no sendfile(2), the replacement sends exactly the requested bytes of the file once each, and returns.", "quantifier": "every file, offset, count and behaviour of the connection", "why_tests_cant": "All sizes and all partial writes.", "anchors": ["src/util.c:fly_sendfile"]}
{"id": "C142", "title": "Added content is picked up while the server runs", "statement": "While files and directories below a mount point are added, written to or get new attributes, at any depth and however this interleaves with the server's reaction, the server keeps running; once it has caught up it knows everything added in the mount point or in directories made since the start, and whenever what it knows changes the workers are told.", "quantifier": "every tree at the start, every history of additions and writes, every interleaving with the master's reading", "why_tests_cant": "All trees, histories and schedules.", "anchors": ["src/master.c:__fly_inotify_in_mp", "src/master.c:__fly_inotify_in_pf", "src/mount.c:fly_inotify_add_watch", "src/mount.c:__fly_nftw"]}
{"id": "C143", "title": "The server follows the files of a mount point", "statement": "For a mount point with files only, when the server catches up after every change: it knows exactly the files that are there, however often files come, go, are written to or moved in and out, and every such change is told to the workers exactly once.", "quantifier": "every set of files, every number and sequence of changes", "why_tests_cant": "All histories.", "anchors": ["src/master.c:__fly_inotify_in_mp", "src/master.c:__fly_inotify_in_pf", "src/mount.c:fly_inotify_add_watch", "src/mount.c:fly_inotify_rm_watch"]}
{"id": "C144", "title": "Changing served files does not end the server", "statement": "Whatever is done to the files below a mount point, and whenever, the server keeps running.", "quantifier": "every tree, history of changes and interleaving with the master's reading", "why_tests_cant": "All histories and schedules, including files that are gone before the server looks.", "anchors": ["src/master.c:__fly_master_inotify_handler", "src/mount.c:fly_inotify_add_watch", "src/cache.c:fly_hash_update_from_parts_file_path", "src/event.c:fly_event_handle"]}
{"id": "C145", "title": "Every change of served files is noticed", "statement": "Every file that is added, written to, renamed or removed below a mount point is noticed by the server, and its workers are told.", "quantifier": "every tree at the start and every history of changes", "why_tests_cant": "All trees and histories.", "anchors": ["src/mount.c:fly_mount_inotify", "src/mount.h:FLY_INOTIFY_WATCH_FLAG_PF", "src/master.c:__fly_inotify_in_pf"]}
{"id": "C146", "title": "Ready connections are handled once each, in order", "statement": "Whenever the server is told which connections are ready (or expired), the handler of each is called exactly once, in order and (if ready) with signals blocked; every log entry asked for is written, once and in order, before the server waits again; the turn ends and touches no released event. Only a handler reporting an error meant to end the process cuts this short, after the calls before it.", "quantifier": "every history of turns, every report of ready or expired connections, all behaviours of the handlers that keep to the rule of flags and descriptors", "why_tests_cant": "All interleavings of connections and outcomes of their handlers.", "anchors": ["src/event.c:__fly_event_handle", "src/event.c:fly_event_handle", "src/event.c:__fly_event_handle_nomonitorable", "src/event.c:__fly_expired_event"]}
{"id": "C147", "title": "A failing connection is closed once and forgotten", "statement": "A connection stays registered after its handler was called exactly if the handler did not fail and asked to keep it; if the handler closed the descriptor, failed, or both, the descriptor is closed exactly once; a connection that was removed is never handled again.", "quantifier": "every history of turns, all behaviours of the handlers that keep to the rule of flags and descriptors", "why_tests_cant": "Double closing needs failing handlers at certain points of certain histories.", "anchors": ["src/event.c:__fly_event_handle_failure_log", "src/event.c:fly_event_unregister", "src/event.h:fly_nodelete"]}
{"id": "C148", "title": "The other connections are left alone", "statement": "A connection that is neither ready nor expired in a turn stays registered, watched and open, unchanged, whatever the handlers of the others do; whenever the server waits it watches exactly the open descriptors of its registered connections, and signals are not blocked.", "quantifier": "every history of turns, all behaviours of the handlers that keep to the rule of flags and descriptors", "why_tests_cant": "All histories with any number of connections.", "anchors": ["src/event.c:fly_event_register", "src/event.c:fly_event_unregister", "src/event.c:__fly_event_handle"]}
{"id": "C149", "title": "An acknowledgement leaves the client's settings in force", "statement": "Over HTTP/2, the client's acknowledgement of the server's SETTINGS changes nothing about what the client has asked for; the client's settings in force are always those of its own SETTINGS frames.", "quantifier": "every history of SETTINGS frames, acknowledgements, other frames and writes, every configuration of the server's settings", "why_tests_cant": "All histories and all 32-bit values.", "anchors": ["src/v2.c:fly_received_settings_frame_ack", "src/v2.c:fly_hv2_settings_value_nb", "src/v2.c:fly_send_settings_frame_of_server"]}
{"id": "C150", "title": "Frames waiting to be sent outlive an acknowledgement", "statement": "Over HTTP/2, every frame the server has queued is sent once, in order, whenever the client's acknowledgements arrive; released memory is never used.", "quantifier": "every history of SETTINGS frames, acknowledgements, other frames and writes", "why_tests_cant": "Depends on how acknowledgements interleave with writes.", "anchors": ["src/v2.c:fly_received_settings_frame_ack", "src/v2.c:fly_hv2_release_yet_ack_frame", "src/v2.c:fly_state_send_frame", "src/v2.c:__fly_hv2_add_yet_send_frame"]}
{"id": "C151", "title": "The memory of control frames is given back", "statement": "Once the server's SETTINGS frames have been sent and acknowledged, the connection keeps no memory for them.", "quantifier": "every history of an HTTP/2 connection, every configuration", "why_tests_cant": "Unbounded histories; a leak shows only after a long time.", "anchors": ["src/v2.c:fly_hv2_release_yet_ack_frame", "src/v2.c:fly_received_settings_frame_ack", "src/v2.c:fly_state_send_frame", "src/alloc.c:fly_pbfree"]}
{"id": "C152", "title": "Files are served under the media type of their extension", "statement": "The Content-Type of a static file is the one of its extension (txt, csv, html, htm, css, xml, js, rtf); every other file is text/plain, whatever dots its directories and its name have.", "quantifier": "every path", "why_tests_cant": "Infinitely many paths.", "anchors": ["src/mime.c:fly_mime_type_from_path_name", "src/mime.c:mimes", "src/header.c:fly_add_content_type"]}
{"id": "C153", "title": "The page of a status is the file with its number", "statement": "With a directory of default contents configured, the page used for a status is <directory>/<status>.html as text/html if that file can be read, and none otherwise.", "quantifier": "every directory, every content of the file system, every status of the framework", "why_tests_cant": "All combinations of pages, unreadable files and paths.", "anchors": ["src/worker.c:__fly_worker_open_default_content", "src/context.c:fly_default_content_by_stcode", "src/response.c:responses"]}
{"id": "C154", "title": "Signals that do not ask for the end do not end the server", "statement": "A signal whose default action is not to end a process (window size, a child that ended, continuing, stopping, urgent data), SIGPIPE, and the server's own SIGUSR1 leave master and workers running and serving.", "quantifier": "every history of signals arriving and being read, in every order", "why_tests_cant": "All interleavings of arrival and reading; signals coalesce.", "anchors": ["src/master.c:fly_master_signals", "src/master.c:__fly_msignal_handle", "src/worker.c:fly_worker_signals", "src/worker.c:__fly_wsignal_handle", "src/worker.c:__fly_worker_signal_event"]}
{"id": "C155", "title": "The server leaves signal actions as the program set them", "statement": "After run() has returned, for a signal or a reload, the action of every signal is the one the program had set before, however often the server was run.", "quantifier": "every program that sets actions and masks and runs the server any number of times, every signal", "why_tests_cant": "Unbounded histories of runs and settings.", "anchors": ["src/master.c:__fly_master_get_now_sighandler", "src/master.c:__fly_master_set_orig_sighandler", "src/fsignal.c:fly_refresh_signal"]}
{"id": "C156", "title": "The server leaves the signal mask as the program set it", "statement": "After run() has returned, the same signals are blocked as before.", "quantifier": "every mask, every signal", "why_tests_cant": "All masks.", "anchors": ["src/master.c:__fly_master_set_orig_sighandler", "src/master.c:fly_master_process", "src/master.c:__fly_master_fork"]}
{"id": "C157", "title": "A broken application file is loaded again when it is corrected", "statement": "While the server waits for a correction of an application file that could not be loaded, the first turn in which the file has changed loads it again, and Ctrl-C ends the server in the turn it is seen.", "quantifier": "every history of turns, signals and changes", "why_tests_cant": "Unbounded waiting and any interleaving of signals.", "anchors": ["fly/app.py:_watch_dog", "fly/app.py:_run"]}
{"id": "C158", "title": "A server that waits for a correction can be terminated", "statement": "SIGTERM ends the server while it waits for a correction of its application file.", "quantifier": "every history of turns and signals", "why_tests_cant": "Unbounded waiting.", "anchors": ["fly/app.py:_watch_dog", "src/master.c:fly_master_process"]}
{"id": "C159", "title": "A reload ends all old workers first", "statement": "When the application file has changed, every worker of the old application is told to end, once, and has ended before the new application is loaded.", "quantifier": "every history of worker ends before, every order in which workers end then", "why_tests_cant": "All orders of ends and unnoticed ends.", "anchors": ["src/master.c:fly_kill_workers", "src/master.c:__fly_reload", "src/master.c:fly_remove_worker"]}
{"id": "C160", "title": "SIGUSR1 does not make the master lose workers", "statement": "Whatever SIGUSR1 the master gets, its table goes on naming its workers.", "quantifier": "every history of SIGUSR1 with any sender and value", "why_tests_cant": "All senders and values.", "anchors": ["src/master.c:fly_master_notice_worker_daemon_pid", "src/worker.c:__fly_notice_master_now_pid"]}
{"id": "C161", "title": "The descriptors of the event loop do not pile up", "statement": "Whatever versions of the application are started, reloaded, fail and end one after the other: while the server serves, the master holds exactly one poll descriptor, one for signals and two for file notifications; otherwise none.", "quantifier": "every history of starts, changes of the application file, failures and ends, every configuration and limit", "why_tests_cant": "Unbounded numbers of reloads.", "anchors": ["src/event.c:fly_event_manager_release", "src/master.c:fly_master_release", "fly/app.py:_start_server"]}
{"id": "C162", "title": "Reloading leaves no descriptors open", "statement": "After a reload the process of the master holds only the descriptors the new server needs; it can be reloaded as long as one likes.", "quantifier": "every list of versions of the application, every configuration and limit of descriptors", "why_tests_cant": "Unbounded numbers of reloads.", "anchors": ["src/conf.c:fly_open_config_file", "src/log.c:fly_log_release", "src/master.c:fly_master_release"]}
{"id": "C163", "title": "Ending a server touches no freed memory", "statement": "When a server ends or is reloaded, the lists it kept are freed completely, each element once, and nothing is read after it was freed.", "quantifier": "lists of any length, any memory", "why_tests_cant": "Undefined behaviour shows in some allocators only.", "anchors": ["src/master.c:fly_master_release", "src/master.c:__fly_master_release_orig_sighandler"]}
{"id": "C164", "title": "Every change of the application is served", "statement": "After every change of the application file to a version that can be served, the server serves that version, however often the file changes.", "quantifier": "every list of changes, every recursion limit and number of descriptors", "why_tests_cant": "Unbounded numbers of reloads.", "anchors": ["fly/app.py:_run", "fly/app.py:_run_server", "src/pyserver.c:__pyfly_run"]}
{"id": "C165", "title": "A failed start can be corrected", "statement": "When an application cannot be started the process waits, and the first corrected version of the file is served.", "quantifier": "every failure, every later history", "why_tests_cant": "All combinations of failures and corrections.", "anchors": ["fly/app.py:_run", "fly/app.py:_watch_dog", "fly/app.py:_display_explain", "fly/app.py:_start_server"]}
{"id": "C166", "title": "The command line stays in force", "statement": "The options given on the command line hold for every version of the application that is served.", "quantifier": "every command line, application and history of changes", "why_tests_cant": "All histories of changes.", "anchors": ["fly/main.py:run", "fly/app.py:Fly.__init__", "src/pyserver.c:__pyfly_configure"]}
{"id": "C167", "title": "The status of the command tells a failure", "statement": "The command fly ends with a status other than 0 when the server could not be started.", "quantifier": "every way in which a start fails", "why_tests_cant": "All failures.", "anchors": ["fly/main.py:run", "fly/app.py:_display_master_configure_error"]}
{"id": "C168", "title": "A server that starts serves exactly what the application mounted", "statement": "If the server starts, every directory the application mounted is a mount point, numbered in the order of the calls, with exactly the files and directories below it; the start-up message shows for each path the number of its mount point and the number of its files.", "quantifier": "every file system with links, every working directory, every list of mount calls, every limit", "why_tests_cant": "All trees, paths and orders of calls.", "anchors": ["src/mount.c:fly_mount", "src/mount.c:fly_mount_number", "src/mount.c:fly_mount_files_count", "fly/mount.py:Mount.mount", "fly/app.py:_display_explain", "src/pyserver.c:__pyfly_mount"]}
{"id": "C169", "title": "An application whose directories exist starts", "statement": "If every mounted path names a directory that can be read and no limit is exceeded, the server starts.", "quantifier": "every file system with links, every way of writing a path, every working directory", "why_tests_cant": "All combinations of links and spellings of paths.", "anchors": ["src/mount.c:fly_mount", "src/mount.c:fly_mount_number", "fly/mount.py:Mount.mount", "fly/app.py:_display_explain"]}
{"id": "C170", "title": "The limit of mount points holds", "statement": "A running server never has more mount points than configured, and an application with more different directories does not start instead of leaving some out.", "quantifier": "every limit, every list of mount calls", "why_tests_cant": "All limits and lists.", "anchors": ["src/mount.c:fly_mount", "src/mount.c:fly_mount_max", "src/pyserver.c:__pyfly_mount"]}
{"id": "C171", "title": "A mount point that disappears takes only its own files with it", "statement": "When a mounted directory is removed or moved while the server runs, its files are no longer served and all other files are; the server goes on.", "quantifier": "every number of mount points, every history of files, whichever directory goes away", "why_tests_cant": "All histories and points in time; undefined behaviour shows in some allocators only.", "anchors": ["src/mount.c:fly_unmount", "src/mount.c:fly_inotify_rmmp", "src/worker.c:__fly_work_unmount", "src/worker.c:fly_worker_signal_change_mnt_content", "src/master.c:__fly_inotify_in_mp"]}
{"id": "C172", "title": "From the client's bytes to the function and back", "statement": "On one HTTP/1.1 connection, whatever requests a client sends one after the other, in whatever pieces, and however the kernel takes the responses: the client reads exactly one response per request, in order, and each is the one the function of the first registered route made of exactly the path, query, parameters, header fields and content of that request (or 500 if the function raised, 404 if there is neither route nor file).", "quantifier": "every application (routes, functions as arbitrary functions of what they get), every list of requests, every division into pieces, every pattern of blocked writes", "why_tests_cant": "All applications, request sequences and schedules at once.", "anchors": ["src/request.c:fly_request_event_handler", "src/pyserver.c:pyfly_route_handler", "src/response.c:fly_response_event_handler", "src/route.c:fly_found_route"]}
{"id": "C173", "title": "A closing response is the last one and is complete", "statement": "A response with Connection: close, and the 413 that replaces content that is too long, is read by the client in full after all responses before it; the connection is closed after it and later requests are not looked at.", "quantifier": "every application, list of requests, later bytes and schedule", "why_tests_cant": "All histories of one connection.", "anchors": ["src/response.c:fly_after_response", "src/connect.c:fly_connect_release", "src/header.c:fly_connection"]}
{"id": "C174", "title": "CORS decorators do exactly what they say", "statement": "In an application loaded for debugging, a route below @allow_cors or @all_allow_cors is served with exactly the configured CORS fields on every response, its path answers preflight requests with 200, no content and exactly the configured fields (and the maximum age), and other routes are not touched.", "quantifier": "every application file (lists of definitions under any decorators), every settings, every result of the functions, with and without settings for the whole application", "why_tests_cant": "All application files and settings.", "anchors": ["fly/cors.py:allow_cors", "fly/cors.py:all_allow_cors", "fly/cors.py:_option", "fly/app.py:route", "fly/_base.py:handler"]}
{"id": "C175", "title": "CORS in production is what was asked for in production", "statement": "Outside debug mode, decorators for debugging only (only_debug) have no effect, and decorators for production give the route and its preflight answers all their fields.", "quantifier": "every application file, both ways of choosing production (Fly(debug=False) and --production)", "why_tests_cant": "All application files; the order of routes matters.", "anchors": ["fly/cors.py:allow_cors", "fly/route.py:remove_only_debug_headers", "fly/_base.py:remove_default_headers_with_debug", "fly/main.py:run"]}
{"id": "C176", "title": "A route that can be registered can have CORS", "statement": "If an application loads with a route, it also loads with a CORS decorator with valid arguments above that route.", "quantifier": "every application file, path, method, settings", "why_tests_cant": "All paths and combinations of routes.", "anchors": ["fly/cors.py:allow_cors", "fly/cors.py:_check_cors_type", "fly/route.py:register_route"]}
{"id": "C177", "title": "Round trips over HTTP/2", "statement": "On one HTTP/2 connection, whatever requests a client sends: on the stream of each request the client reads exactly one whole response, made of frames within its limits, with exactly the status, fields and content that the function of the first registered route made of exactly the path, query, parameters, header fields and content of that request (or 500 if the function raised, 413 if its content is too long, 404 if there is neither route nor file).", "quantifier": "every application (routes, functions as arbitrary functions of what they get), every list of requests and of representations of their header fields, every schedule of the write calls, every window and frame size", "why_tests_cant": "All applications, requests and schedules at once; the parts only fit together if each keeps what the next one needs.", "anchors": ["src/v2.c:fly_hv2_response_event_handler", "src/v2.c:fly_hv2_response_event", "src/v2.c:fly_hv2_parse_headers", "src/v2.c:fly_send_headers_frame", "src/v2.c:fly_send_data_frame", "src/pyserver.c:pyfly_route_handler"]}
{"id": "C178", "title": "Serving does not change the texts of the application", "statement": "A str of the application is the same text before and after any responses are sent, and the fields of a response are those its function gave, whatever was served before over HTTP/1 or HTTP/2.", "quantifier": "every history of responses over HTTP/1 and HTTP/2, with texts shared between names, values and responses in every way", "why_tests_cant": "All histories and all ways of sharing objects.", "anchors": ["src/pyserver.c:pyfly_route_handler", "src/char.h:fly_alpha_upper_to_lower"]}
{"id": "C179", "title": "A worker comes up with everything that is mounted", "statement": "A worker whose mounted files are there, readable and (where due) encodable, and which may open as many files as it needs, comes up: each mounted file is served with the content or the encoding it has, every page of a status code is there, and the worker ends when it is told to.", "quantifier": "every list of mounted directories and files, every threshold and maximum, every encoder, every directory of pages, every descriptor limit that suffices", "why_tests_cant": "All sets of files and limits.", "anchors": ["src/worker.c:fly_worker_process", "src/worker.c:__fly_worker_open_file", "src/worker.c:__fly_worker_open_default_content", "src/worker.c:fly_preencode_pf", "src/mount.c:fly_join_path"]}
{"id": "C180", "title": "A file that cannot be read costs only itself", "statement": "If one mounted file cannot be opened, read or encoded, workers still come up, every other file is served, and a request for that file is answered with an error.", "quantifier": "every list of mounted files, whichever of them cannot be read, for whatever reason; every history of the master", "why_tests_cant": "All combinations of files; the effect passes through the exit status to the master and all other workers.", "anchors": ["src/worker.c:__fly_worker_open_file", "src/worker.c:fly_preencode_pf", "src/response.c:fly_response_set_send_ptr", "src/master.c:__fly_sigchld"]}
{"id": "C181", "title": "With few descriptors the server serves or says that it cannot", "statement": "Whatever the limit of open files, a started worker serves requests and can be terminated, or the server ends with an error.", "quantifier": "every number of mounted files and pages, every descriptor limit, every history of ended workers", "why_tests_cant": "All limits around the number of files; the endless replacement of workers only shows over unbounded histories.", "anchors": ["src/worker.c:fly_worker_process", "src/worker.c:__fly_worker_signal_event", "src/fsignal.c:fly_signal_register", "src/event.c:fly_event_manager_init", "src/master.c:__fly_sigchld"]}
{"id": "C182", "title": "A cookie the application sets comes back", "statement": "Whatever cookies an application sets with set_cookie, in whatever order, as often and with whatever lifetimes: in every later request of the same client, the handler's cookie parameter of that name is the value set last, as long as its lifetime is not over, and nothing afterwards.", "quantifier": "every history of set_cookie calls with their times, every later time of a request, every cookie name", "why_tests_cant": "Histories of any length over two protocols' worth of text: what set_cookie writes, what a client stores and sends (RFC 6265), and what the request parser reads must agree for all texts.", "anchors": ["fly/response.py:set_cookie", "fly/cookie.py:header_value_from_cookie", "fly/_parse.py:parse_cookie"]}
{"id": "C183", "title": "Dates in responses are HTTP dates", "statement": "The Date of a response without one of the application's own is the HTTP date (RFC 9110) of the time it was made, and the Last-Modified of a file is the HTTP date of its modification time, with the right day of the week, for every time; different times give different texts.", "quantifier": "every time of the years 1000 to 9999, every conforming gmtime_r, every header list, both protocols", "why_tests_cant": "All times: leap years, centuries and ends of months; a test sees a few days.", "anchors": ["src/ftime.c:fly_imt_fixdate", "src/header.c:fly_add_date", "src/header.c:fly_add_last_modified", "src/worker.c:__fly_worker_open_file"]}
{"id": "C184", "title": "Dates do not depend on the locale", "statement": "Whatever locale the application has set, Date and Last-Modified are HTTP dates.", "quantifier": "every locale, every time", "why_tests_cant": "All locales and times.", "anchors": ["src/ftime.c:fly_imt_fixdate"]}
{"id": "C185", "title": "Files and functions of a site over one connection", "statement": "On one HTTP/1.1 connection, whatever requests a client sends for functions, files and directories in any order: it reads exactly one response per request, in order: what the function gives; the whole file, or an announced encoding of it the client accepts, with its length, hash, time and type; 404 for a directory; 405 for another method than GET. No other byte of the server's memory is sent.", "quantifier": "every application and set of mounted files, every list of requests, every division into pieces, every pattern of blocked writes, every content of unused memory", "why_tests_cant": "All sites, request sequences, negotiations and schedules at once.", "anchors": ["src/response.c:fly_response_from_pf", "src/response.c:fly_response_content_event_handler", "src/response.c:fly_response_event", "src/mount.c:fly_found_content_from_path", "src/request.c:fly_request_event_handler"]}
{"id": "C186", "title": "A client gets the content a file has", "statement": "After any history of writes to a mounted file, notices of them and requests, a client that asks for the file reads the content it has now (or an encoding of it), and nothing else.", "quantifier": "every history of writes, notices and requests, every content, every threshold and negotiated coding", "why_tests_cant": "Unbounded histories of writes; what the unused memory holds differs from run to run.", "anchors": ["src/response.c:fly_response_content_event_handler", "src/response.c:fly_response_set_send_ptr", "src/worker.c:__fly_worker_modupdate", "src/worker.c:fly_preencode_pf"]}
{"id": "C187", "title": "Allow omits no supported method", "statement": "The 405 response to a request for a file or directory has a field Allow that lists GET and every method for which the application has a function at this path.", "quantifier": "every application, set of files and request", "why_tests_cant": "All applications and paths.", "anchors": ["src/response.c:fly_405_event", "src/route.c:fly_valid_method", "src/header.c:fly_add_allow"]}
{"id": "C188", "title": "Allow lists only supported methods", "statement": "Every method listed in Allow is supported at the path of the request.", "quantifier": "every application, set of files and request", "why_tests_cant": "All applications and paths.", "anchors": ["src/route.c:fly_valid_method", "src/header.c:fly_add_allow"]}
{"id": "C189", "title": "Requests of many clients have one order", "statement": "However the requests of any number of clients arrive, interleaved and in pieces, and whatever other clients send meanwhile: the worker handles them one at a time in one order. The application has the state it would have if it had handled them one after the other in that order; each client reads, in the order of its requests, exactly the responses the functions made in those states; and each request changed the state as its function does with exactly what that client sent.", "quantifier": "every application with state (functions of the request and the state), every list of requests of every client, every schedule of arrivals, handler calls and write calls, every behaviour of other clients", "why_tests_cant": "All interleavings of unboundedly many clients; a race shows in few schedules.", "anchors": ["src/event.c:fly_event_handler", "src/request.c:fly_request_event_handler", "src/response.c:fly_response_event", "src/response.c:fly_after_response", "src/pyserver.c:pyfly_route_handler"]}
{"id": "C190", "title": "The order of handling respects real time", "statement": "If one client has read the response to a request before another client begins a request, the first request is handled before the second; a request of which something has not arrived is not handled; what was handled stays handled.", "quantifier": "every application, every set of clients, every schedule and every later continuation of it", "why_tests_cant": "All schedules and points in time.", "anchors": ["src/event.c:fly_event_handler", "src/request.c:fly_request_event_handler", "src/response.c:fly_response_event"]}
{"id": "C191", "title": "Every request is answered, whatever other clients do", "statement": "When a request has been sent, a bounded number of calls of its connection's handler suffices for the client to have its response, whatever happens on all other connections.", "quantifier": "every application, every set of clients, every schedule before and after, every behaviour of other clients", "why_tests_cant": "All schedules; other clients can do anything.", "anchors": ["src/event.c:fly_event_handler", "src/request.c:fly_request_event_handler", "src/response.c:fly_response_event"]}
{"id": "C192", "title": "HTTP/2 errors are reported with the right code", "statement": "A frame that breaks a rule of HTTP/2 is answered by GOAWAY or RST_STREAM with the code RFC 9113 gives for that rule, and a frame that breaks none is answered by neither.", "quantifier": "every history of frames on a connection and every next frame", "why_tests_cant": "All histories and all values of type, flags, length and stream.", "anchors": ["src/v2.c:fly_hv2_request_event_handler", "src/v2.c:__fly_hv2_send_error", "src/v2.c:fly_hv2_create_stream"]}
{"id": "C193", "title": "The length of a request's body comes from its fields", "statement": "The body of a HTTP/1 request is as long as its Content-Length field says, and the request asks for 100 Continue exactly with Expect: 100-continue, whatever the case of the letters; a request with two different lengths or a length that is not a decimal number is rejected.", "quantifier": "every list of header fields", "why_tests_cant": "All field lists, cases and values.", "anchors": ["src/header.c:fly_content_length", "src/header.c:fly_check_expect_100", "src/header.c:fly_header_addb"]}
{"id": "C194", "title": "Mounted files over HTTP/2", "statement": "A client that asks for a mounted file over HTTP/2 reads on the stream of its request one whole response with the file's length, tag, date and type and the whole file, in the form the negotiation asks for; another method gets 405 with the allowed methods; requests for functions on the same connection are not disturbed.", "quantifier": "every application, set of files, list of requests on a connection, header compression history, and sizes of the writes", "why_tests_cant": "All connections of any number of requests, all files and all encodings of the header fields.", "anchors": ["src/response.c:fly_respf", "src/response.c:fly_405_response", "src/v2.c:fly_hv2_response_event", "src/v2.c:fly_hv2_response_event_handler", "src/v2.c:fly_send_data_frame"]}
{"id": "C195", "title": "A client gets a form it takes, or 406", "statement": "Whatever a client says with Accept, Accept-Encoding, Accept-Language and Accept-Charset: a response with content comes in a content coding, media type, character set and language the client takes, or the client reads 406 and no function is called; it reads 406 only if it refuses everything the server has; in both cases the connection goes on with the next request.", "quantifier": "every application and set of files, every list of requests with any of these fields, every division into pieces, every pattern of writes, both protocols", "why_tests_cant": "All sets of wishes combined with all sites and connections.", "anchors": ["src/request.c:fly_request_event_handler", "src/v2.c:fly_hv2_response", "src/encode.c:fly_accept_encoding", "src/encode.c:fly_decided_encoding_type", "src/encode.c:fly_encoding_matching", "src/mime.c:fly_accept_mime", "src/charset.c:fly_accept_charset", "src/lang.c:fly_accept_lang", "src/response.c:fly_406_response"]}
{"id": "C196", "title": "A refused request costs the client nothing else", "statement": "On one HTTP/1.1 connection, behind any number of requests that are answered: a request with fields against the rules is answered 400 and the connection goes on; something that is no request line is answered 400, and a request with more content than allowed 413, both announced as the last response, and then the connection is closed. The client reads every response in order, none twice and none more, and no function is called for a refused request or for anything sent behind the end.", "quantifier": "every site, every list of requests, every malformed line and overlong content, every way it is cut into pieces, everything sent behind it", "why_tests_cant": "Unbounded sequences of requests, all cuts, all malformed texts.", "anchors": ["src/request.c:fly_request_event_handler", "src/response.c:fly_400_event_norequest", "src/response.c:fly_400_response", "src/response.c:fly_413_response", "src/response.c:fly_after_response"]}
{"id": "C197", "title": "The access log agrees with what clients asked and read", "statement": "On any HTTP/1.1 connection the access log has exactly one line for each response that has been written, in their order, and each line shows the addresses, the request line the client sent and the status the client read; what is no request line is shown as `?`; a response that could not be written is not claimed.", "quantifier": "every site, every list of requests (answered, refused, garbled, too long), every way they are cut into pieces, every end of the connection", "why_tests_cant": "Unbounded histories of requests; agreement of two outputs made at different places.", "anchors": ["src/response.c:fly_response_log", "src/response.c:__fly_response_logcontent", "src/request.c:__fly_request_operation", "src/log.c:fly_log_event_register", "src/response.c:fly_400_event_norequest"]}
{"id": "C198", "title": "A refused HTTP/2 request costs no other request anything", "statement": "On one HTTP/2 connection, among any requests that are answered: header fields that are no request and fields against the rules are answered 400, too much content 413, each with one whole response on the stream of its request and without calling a function; every other request before and after gets what it asks for, also if its header block refers to entries that were made by earlier or by refused requests.", "quantifier": "every site, every list of requests (answered, malformed, against the rules, too long), every encoding of the header blocks and every pattern of writes", "why_tests_cant": "Unbounded sequences of requests on one connection with compression state.", "anchors": ["src/v2.c:fly_hv2_response_event_handler", "src/v2.c:fly_hv2_request_line_from_header", "src/v2.c:fly_hv2_parse_headers", "src/response.c:fly_400_response", "src/response.c:fly_413_response"]}
{"id": "C199", "title": "From the frames a client sends to the responses it reads", "statement": "A client that opens a HTTP/2 connection with its settings and then sends requests, each as a HEADERS frame and any number of DATA frames, the frames of different requests mixed in any way and with settings, acknowledgements, window updates and frames of unknown types anywhere between, some cancelled before they are complete, gets exactly one response for each complete request, in the order in which they are complete and each on its stream, within the windows it has given and with what it asks for or the refusal it deserves, and is told of no error, however the bytes of the frames lie in the server's receive buffer.", "quantifier": "every site, every list of requests, every division of contents into frames, every mixture of the frames of different requests and of control frames, every layout over the chunks of the buffer, every header compression history", "why_tests_cant": "Unbounded sequences of frames with all encodings and layouts.", "anchors": ["src/v2.c:fly_hv2_request_event_handler", "src/v2.c:fly_hv2_parse_headers", "src/v2.c:fly_hv2_parse_data", "src/v2.c:fly_hv2_response_event_handler", "src/v2.c:fly_hv2_peer_settings"]}
{"id": "C200", "title": "The access log agrees with what HTTP/2 clients asked for and read", "statement": "For every connection of C199 and every response on it, the access log gets exactly one line, in the order of the responses: it begins with the time stamp, names both ends, shows the request as the client asked for it (method, path with query, HTTP/2) and the status and phrase that the client reads on the stream of that request, and it can be read back line by line.", "quantifier": "every site, every list of requests with the frames mixed in any way, every compression history, every time stamp and address", "why_tests_cant": "Unbounded sequences of requests; agreement between two outputs of the server.", "anchors": ["src/v2.c:fly_hv2_response_event", "src/v2.c:fly_send_data_frame", "src/response.c:fly_response_log", "src/response.c:fly_log_request_line_hv2"]}
{"id": "C201", "title": "All HTTP/2 clients see one order of requests", "statement": "However the frames of any number of HTTP/2 clients arrive, each client speaking as in C199, the requests of all clients have one order, that in which they are complete: each is answered once, on its connection and its stream, with what the application makes of it in the state in which the requests before have left it, and it leaves the state as its function does when called with exactly what the client sent. A request that is refused or that no function serves does not change the state.", "quantifier": "every application with state, every number of clients, every mixture of their frames, every list of requests", "why_tests_cant": "Unbounded number of clients and schedules of their frames.", "anchors": ["src/event.c:fly_event_handler", "src/v2.c:fly_hv2_request_event_handler", "src/v2.c:fly_hv2_response_event_handler", "src/pyserver.c:pyfly_route_handler"]}
{"id": "C202", "title": "HTTP/2 clients do not disturb each other", "statement": "Whatever frames any number of HTTP/2 clients send, as long as the worker runs and if the functions of the application do not depend on what was asked before, each client gets exactly what it would get if its frames were the only ones.", "quantifier": "every application whose results do not depend on its state, every number of clients, every frames, every mixture of them", "why_tests_cant": "All schedules and all clients, including those that break the protocol.", "anchors": ["src/event.c:fly_event_handler", "src/v2.c:fly_hv2_request_event_handler", "src/v2.c:fly_hv2_state_init"]}
{"id": "C203", "title": "An HTTP/2 connection that has ended stays ended, and no stream is answered twice", "statement": "Whatever bytes an HTTP/2 client sends: once the server has sent GOAWAY or given up the connection, or the client has sent GOAWAY, nothing that arrives has any effect; and each stream gets at most one response, and only streams with numbers a client may use get one.", "quantifier": "every site, every bytes in every layout over the buffer, every point at which the connection ends", "why_tests_cant": "All histories of bytes, including those of clients that break the protocol.", "anchors": ["src/v2.c:fly_hv2_request_event_handler", "src/v2.c:fly_hv2_goaway", "src/v2.c:fly_hv2_create_stream", "src/v2.c:fly_hv2_response_event_handler"]}
{"id": "C204", "title": "A client that says goodbye still gets the answers to its requests", "statement": "When an HTTP/2 client sends GOAWAY, the requests it has made before are answered completely and once, and then the connection is closed.", "quantifier": "every state of a connection in which the client's GOAWAY has been handled, every schedule after it", "why_tests_cant": "All positions of the GOAWAY among requests and their responses, all schedules.", "anchors": ["src/v2.c:fly_hv2_goaway_handle", "src/v2.c:fly_hv2_goaway", "src/v2.c:fly_send_frame"]}
{"id": "C205", "title": "What is received of an HTTP/2 response that breaks off is a beginning of it", "statement": "At whatever byte the connection breaks or stops taking data while an HTTP/2 response is sent, and in whatever pieces it took the bytes before, the client has received a beginning of the complete response: no byte is left out, repeated or sent before its turn, and no content follows an incomplete header.", "quantifier": "every response whose header block has at most 1000 bytes, every stream and window, every sequence of results of the write calls for header frames, DATA frame header and content", "why_tests_cant": "the place of the failure and the pieces of the writes are chosen by the network; a test sees a few of them", "anchors": ["src/v2.c: fly_state_send_frame, __fly_send_frame, __fly_send_data_fh, fly_send_data_frame, fly_send_headers_frame"]}
{"id": "C206", "title": "Padding of HTTP/2 frames has no meaning", "statement": "A HEADERS or DATA frame with padding is read like the frame without it: the request has the fields and the content the client has sent, and nothing of the padding.", "quantifier": "every state of a live connection, every header block and every content, every padding, with the frame at any place of the received bytes", "why_tests_cant": "the lengths of padding, block and content and the place of the frame in the buffers are unbounded", "anchors": ["src/v2.c: fly_hv2_pad_length, fly_hv2_request_event_handler, fly_hv2_parse_headers, fly_hv2_parse_data"]}
{"id": "C207", "title": "The frames of an HTTP/2 client do not depend on how its bytes arrive", "statement": "However the bytes of a client's frames are cut into reads, and in whatever pieces of memory they are buffered, the frames are handled in the order in which they were sent, each once, with the type, flags, stream and payload they were sent with, and all of them once their bytes have arrived and the events that follow have been handled; a frame longer than allowed is refused as soon as its header has arrived.", "quantifier": "every sequence of frames of any lengths, every way to cut their bytes into reads, every layout of the buffer, every choice of the frames that begin responses", "why_tests_cant": "the ways to cut a byte stream and to lay it out in memory are unbounded", "anchors": ["src/v2.c: fly_hv2_request_event_handler, fly_receive_v2, fly_hv2_length_from_frame_header, fly_hv2_frame_payload_from_frame_header", "src/buffer.c: fly_buffer_chain_release_from_length, fly_buffer_memcpy"]}
{"id": "C208", "title": "HTTP/2 frames go through the connection buffer unchanged, from the connection preface on", "statement": "After a connection preface that arrives whole, the frames of an HTTP/2 client are handled in the order in which they were sent, each once and as they were sent, whatever the size of the buffer's chunks, whatever was in their memory and however many bytes each read returns; no byte is lost; the buffer does not run out of room as long as it has room for a frame and a read; a frame longer than allowed is refused as soon as its header has arrived; a wrong preface is refused and nothing behind it is handled, while one that arrives in pieces is waited for.", "quantifier": "every sequence of frames of any lengths, every sequence of read sizes, every chunk size and number of chunks, every content of fresh memory, every choice of the frames that begin responses", "why_tests_cant": "the chunk boundaries can fall anywhere in a frame or its header, and every release moves them", "anchors": ["src/v2.c: fly_hv2_init_handler, fly_hv2_init_connection_preface, fly_hv2_request_event_blocking_handler, fly_hv2_request_event_handler, fly_receive_v2", "src/buffer.c: fly_update_buffer, fly_buffer_chain_release_from_length, fly_buffer_chain_refresh, fly_buffer_memcpy"]}
{"id": "C209", "title": "The control frames of an HTTP/2 connection that ends are released once", "statement": "When a client goes away, at whatever point of the exchange of settings, every control frame the server still holds for the connection is released exactly once, with its payload, and no released memory is used.", "quantifier": "every history of SETTINGS frames, acknowledgements, other frames and partial sends, and every point at which the connection ends", "why_tests_cant": "All points of all histories; a double release needs one frame waiting and another one not acknowledged at the moment of the end, and shows up only as memory corruption.", "anchors": ["src/v2.c:fly_hv2_close_stream", "src/v2.c:fly_hv2_send_frame_release_noqueue_remove", "src/v2.c:fly_hv2_close_handle"]}
{"id": "C210", "title": "The credit for received DATA reaches the client as it was granted", "statement": "However often the server credits received bytes and however many bytes the socket takes at a time, the client reads WINDOW_UPDATE frames with allowed increments only, and they add up to what the server has credited.", "quantifier": "every history of credits, every number of bytes the socket takes each time, every stream", "why_tests_cant": "All interleavings of credits and blocking sends; the failure needs a full socket buffer in the middle of a thirteen-byte frame and shows up as a wrong window or a connection error at the client.", "anchors": ["src/v2.c:fly_send_window_update_frame", "src/v2.c:fly_state_send_frame", "src/v2.c:__fly_send_frame"]}
