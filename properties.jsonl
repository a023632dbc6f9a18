{"id": "C01", "title": "SOCKS5 CONNECT requests decode to the address the client encoded", "statement": "If a client sends the RFC 1928 byte encoding of a CONNECT request for an IPv4 address or a domain name of 1 to 254 non-NUL bytes, the server resolves/connects exactly that address and port; it starts connecting exactly when the last byte of the request is consumed and not before.", "quantifier": "every IPv4 address, every domain name of 1..254 non-NUL bytes, every port, every reserved byte, every way the byte stream is cut into receive calls", "why_tests_cant": "The parser is resumable byte by byte; there are 2^48 IPv4 requests, 256^255 names and exponentially many segmentations.", "anchors": ["src/app/socks5.c:s5_p2_req", "src/app/socks5.h:s5_ph2_req_t"]}
{"id": "C02", "title": "Unsupported SOCKS5 requests never open an upstream connection", "statement": "A request whose version is not 5, whose command is not CONNECT, or whose address type is IPv6 or unknown closes the client connection and never leads to a connect or a DNS query; conversely a connect or DNS query is only ever started by a byte stream that is the encoding of a CONNECT request.", "quantifier": "every byte stream and every segmentation", "why_tests_cant": "Soundness of a parser is a statement about all byte strings, including malformed ones.", "anchors": ["src/app/socks5.c:s5_p2_req", "src/app/socks5.c:s5_cup_addr"]}
{"id": "C03", "title": "SOCKS5 method negotiation answers exactly once, after the whole greeting", "statement": "The server answers the greeting with the two bytes 05 00 after the complete method list has been received and sends nothing before; the reply is delivered whole and in order whatever partial writes happen.", "quantifier": "every greeting with 1..255 methods, every segmentation, every pattern of partial and blocked writes", "why_tests_cant": "Interleavings of short reads and short writes are unbounded.", "anchors": ["src/app/socks5.c:s5_p1_req", "src/app/socks5.c:s5_p1_rsp"]}
{"id": "C04", "title": "The SOCKS5 parser never writes outside its request record", "statement": "No client byte stream makes the greeting or request parser store outside the method or address array.", "quantifier": "every byte stream and every segmentation", "why_tests_cant": "Memory safety over all inputs; the offending inputs are isolated (a zero length byte).", "anchors": ["src/app/socks5.c:s5_p1_req", "src/app/socks5.c:s5_p2_req", "src/app/socks5.h"]}
{"id": "C05", "title": "The SOCKS5 success reply is sent only after the upstream connection is established and carries the bound address", "statement": "A reply with code 00 is sent to the client only if the upstream socket reported no pending error; the reply is ten bytes 05 00 00 01 followed by the address and port of the upstream connection in network order.", "quantifier": "every outcome of connect/SO_ERROR and every upstream address and port", "why_tests_cant": "Requires all combinations of connect outcomes; address encoding over 2^48 values.", "anchors": ["src/app/socks5.c:s5_cup_connect", "src/app/socks5.c:s5_cup_connect_chk", "src/app/socks5.c:s5_p2_rsp"]}
{"id": "C06", "title": "IPv4 destinations survive the text round trip", "statement": "The four address bytes taken from the request (or the DNS answer) are the four bytes, in order, of the address that is passed to connect, although the code formats them as dotted text and parses them back.", "quantifier": "all 2^32 addresses", "why_tests_cant": "2^32 cases; the round trip goes through a printer and a parser.", "anchors": ["src/app/socks5.c:s5_cup_addr", "src/app/socks5.c:s5_cup_dns_cb"]}
{"id": "C07", "title": "The tunnel relays each direction in order without loss or duplication", "statement": "At every moment the bytes written to one side are a prefix of the bytes read from the other side, and the difference is exactly the content of the relay buffer.", "quantifier": "every sequence of readiness events, partial reads, partial writes, would-block results, errors and timeouts, in both directions", "why_tests_cant": "The space of schedules and partial I/O results is unbounded.", "anchors": ["src/app/tls_tunnel_s.c:tls_tunnel_traffic_recv", "src/app/tls_tunnel_s.c:tls_tunnel_traffic_send", "src/app/tls_tunnel_s.c:tls_tunnel_traffic_reverse_recv", "src/app/tls_tunnel_s.c:tls_tunnel_traffic_reverse_send"]}
{"id": "C08", "title": "The tunnel never stalls with data it could move", "statement": "Whenever the relay returns to the event loop with both sockets open, each direction either holds no data and waits for its source to become readable, or holds data and waits for its destination to become writable; the last I/O call on the awaited socket reported would-block.", "quantifier": "every reachable state under every schedule", "why_tests_cant": "Lost wake-ups only appear under particular interleavings with edge-triggered readiness.", "anchors": ["src/app/tls_tunnel_s.c:tls_tunnel_traffic_proc", "src/app/tls_tunnel_s.c:tls_tunnel_traffic_recv", "src/app/tls_tunnel_s.c:tls_tunnel_traffic_send"]}
{"id": "C09", "title": "When one side closes, everything it sent before is delivered first", "statement": "If the relay closes because a side reached end of stream, every byte read from that side has been written to the other side.", "quantifier": "every schedule ending in a close caused by end of stream", "why_tests_cant": "Needs all interleavings of EOF with partial writes.", "anchors": ["src/app/tls_tunnel_s.c:tls_tunnel_traffic_recv", "src/app/tls_tunnel_s.c:tls_tunnel_traffic_send"]}
{"id": "C10", "title": "Closing one direction does not lose data of the other direction", "statement": "When one side reaches end of stream, bytes already read from the opposite side are still delivered before the tunnel is torn down.", "quantifier": "every schedule", "why_tests_cant": "Depends on the relative timing of two independent streams.", "anchors": ["src/app/tls_tunnel_s.c:tls_tunnel_traffic_recv", "src/app/tls_tunnel_s.c:tls_tunnel_traffic_reverse_recv"]}
{"id": "C11", "title": "Only holders of a configured key are admitted", "statement": "A session is admitted only if the key field of its authorisation header is one of the keys in the server's key file, independently of what other clients sent before.", "quantifier": "every key file, every header, every history of earlier authorisation attempts", "why_tests_cant": "The matcher keeps state between attempts; soundness ranges over all histories.", "anchors": ["src/app/tls_tunnel_s.c:tls_tunnel_s_auth_chk", "src/common/aho_corasick.c:ezac_find"]}
{"id": "C12", "title": "A client with a configured key is admitted", "statement": "If the client is configured with a key of 1..15 bytes that is listed in the server's key file, the header it sends is accepted by the server, whatever earlier clients sent.", "quantifier": "every key, every key file containing it, every history, every segmentation", "why_tests_cant": "Ranges over all key files and all histories of the shared matcher.", "anchors": ["src/app/tls_tunnel_c.c:tls_tunnel_c_auth_build", "src/app/tls_tunnel_s.c:tls_tunnel_s_auth_chk", "src/common/aho_corasick.c:ezac_find"]}
{"id": "C13", "title": "Authorisation needs the whole header and the right magic", "statement": "No session is admitted before 36 bytes have arrived, and a header whose first four bytes are not a0 01 be ef is always refused and does not affect later sessions.", "quantifier": "every byte stream and every segmentation", "why_tests_cant": "All 2^32 magics and all segmentations.", "anchors": ["src/app/tls_tunnel_s.c:tls_tunnel_s_auth_chk"]}
{"id": "C14", "title": "Key-file compilation never crashes", "statement": "For every list of keys that fits the key file, building the matcher terminates normally.", "quantifier": "every finite list of key strings", "why_tests_cant": "Failure depends on the relation between several keys.", "anchors": ["src/common/aho_corasick.c:ezac_add", "src/common/aho_corasick.c:ezac_compiler"]}
{"id": "C15", "title": "Pool allocations are disjoint, large enough and zeroed", "statement": "Every successful allocation returns a block of at least the requested size, filled with zeroes, that overlaps no other block currently allocated.", "quantifier": "every history of allocations and frees", "why_tests_cant": "An allocator invariant over all operation sequences.", "anchors": ["src/common/mem.c:mem_pool_alloc", "src/common/mem.c:mem_pool_free"]}
{"id": "C16", "title": "Pool exhaustion is reported as failure, and only then", "statement": "An allocation fails exactly when no free block of its size class exists (or the size is not supported); it never corrupts the pool.", "quantifier": "every history of allocations and frees", "why_tests_cant": "Reaching exhaustion of each class in each order is combinatorial.", "anchors": ["src/common/mem.c:mem_pool_alloc"]}
{"id": "C17", "title": "Freed pool blocks become available again", "statement": "Every block freed is eventually returned by a later allocation of its class; the number of live plus free blocks per class never changes; freeing the same block twice has the effect of freeing it once when it was not reallocated in between.", "quantifier": "every history of allocations and frees", "why_tests_cant": "Conservation over all histories.", "anchors": ["src/common/mem.c:mem_pool_free", "src/common/mem.c:mem_pool_init"]}
{"id": "C18", "title": "The intrusive queue behaves like a sequence", "statement": "Insert at head, insert at tail, remove, head, next, prev and empty on the linked queue behave like the corresponding operations on a finite sequence, and leave other queues untouched.", "quantifier": "every queue content and every operation sequence", "why_tests_cant": "Pointer manipulation correctness over all list shapes.", "anchors": ["src/common/util/queue.c"]}
{"id": "C19", "title": "Chained sends transmit the chain content in order", "statement": "However often a chained send is resumed after partial writes, the bytes accepted by the socket are always a prefix of the concatenated content of the chain, and completion is reported exactly when all of it has been accepted.", "quantifier": "every chain, every pattern of partial, blocked and interrupted writes", "why_tests_cant": "Unbounded patterns of partial writes.", "anchors": ["src/common/net_send.c:send_chains", "src/common/ssl.c:ssl_write_chain"]}
{"id": "C20", "title": "Buffer appends never overflow", "statement": "Appending to a buffer either fails and leaves it unchanged or appends exactly the given bytes; the cursors always satisfy start <= pos <= last <= end; flattening a chain yields the concatenation of its parts.", "quantifier": "every buffer state and every append", "why_tests_cant": "All sizes and histories.", "anchors": ["src/common/meta.c:meta_pdata", "src/common/meta.c:meta_dump", "src/common/meta.c:meta_getlens"]}
{"id": "C21", "title": "A timer never fires early and fires at most once per arming", "statement": "A timer callback runs only when the current time has reached its deadline, at most once per arming, never after it was cancelled.", "quantifier": "every history of arming, re-arming, cancelling and expiring", "why_tests_cant": "Histories of timers are unbounded.", "anchors": ["src/common/timer.c:tm_add", "src/common/timer.c:tm_del", "src/common/timer.c:timer_expire"]}
{"id": "C22", "title": "All due timers fire and the reported wait is the time to the next deadline", "statement": "After an expiry pass no armed timer is due, and the pass returns the distance to the earliest remaining deadline (200 ms when none).", "quantifier": "every history of arming, cancelling and expiring", "why_tests_cant": "Depends on the heap shape reached through arbitrary cancellations.", "anchors": ["src/common/timer.c:timer_expire", "src/common/util/bheap.c:heap_del"]}
{"id": "C23", "title": "The heap always exposes a minimal key", "statement": "After any sequence of insertions and deletions (of arbitrary elements) the reported minimum is a smallest element present.", "quantifier": "every operation sequence on every heap", "why_tests_cant": "Violations need specific shapes after specific deletions.", "anchors": ["src/common/util/bheap.c:heap_add", "src/common/util/bheap.c:heap_del", "src/common/util/bheap.c:heap_min"]}
{"id": "C24", "title": "Heap operations add and remove exactly the given element", "statement": "Insertion adds exactly the given element (or fails when full, changing nothing), deletion by an element's stored index removes exactly that element, and every element's stored index stays equal to its position.", "quantifier": "every heap and every operation", "why_tests_cant": "Index bookkeeping over all heaps.", "anchors": ["src/common/util/bheap.c"]}
{"id": "C25", "title": "The hash table behaves like a first-write-wins map", "statement": "Lookup returns the value of the first insertion of exactly that key since it was last deleted, and nothing for other keys; deletion removes the key; keys that collide do not interfere.", "quantifier": "every operation sequence, every key, every table size, every hash function value", "why_tests_cant": "Collisions and histories are unbounded.", "anchors": ["src/common/util/ezhash.c"]}
{"id": "C26", "title": "DNS questions encode the requested name", "statement": "The question sent for a host name consists of its labels in order, each preceded by its length and followed by a terminating zero; decoding the question per RFC 1035 gives back the labels of the host name.", "quantifier": "every host name", "why_tests_cant": "All names.", "anchors": ["src/dns/dns.c:dns_request_host2qname", "src/dns/dns.c:dns_request_packet"]}
{"id": "C27", "title": "DNS answers yield the first A record", "statement": "For every well formed response (owner names as compression pointers) the resolved address is the four data bytes of the first A record, whatever other records precede it; without A record the resolution fails.", "quantifier": "every list of resource records", "why_tests_cant": "All record sequences and data.", "anchors": ["src/dns/dns.c:dns_response_recv", "src/dns/dns.c:dns_response_analyze"]}
{"id": "C28", "title": "DNS results come from the answer to our question", "statement": "A resolution result is taken only from a response whose identifier, question and owner name match the query and from data inside the response.", "quantifier": "every datagram", "why_tests_cant": "All datagrams.", "anchors": ["src/dns/dns.c:dns_response_recv", "src/dns/dns.c:dns_response_analyze"]}
{"id": "C29", "title": "Cached DNS entries are used only while their TTL lasts", "statement": "A cached address is returned only before the time to live announced by the server has passed, and stays available until then.", "quantifier": "every history of insertions, lookups and periodic sweeps", "why_tests_cant": "Time dependent behaviour over arbitrary histories.", "anchors": ["src/dns/dns.c:dns_rec_add", "src/dns/dns.c:dns_rec_find", "src/dns/dns.c:dns_rec_chk"]}
{"id": "C30", "title": "A cached address is the one resolved for exactly that name", "statement": "If the cache answers for a name then the address is the one stored by a resolution of exactly that name.", "quantifier": "every history of insertions, lookups and sweeps", "why_tests_cant": "Histories and hash collisions.", "anchors": ["src/dns/dns.c:dns_rec_add", "src/dns/dns.c:dns_rec_find"]}
{"id": "C31", "title": "HTTP requests arriving in one piece are split exactly", "statement": "For a syntactically valid request received in one piece, method, target, version and header fields seen by handlers are exactly the substrings of the request.", "quantifier": "every method, target, version and header list", "why_tests_cant": "All strings.", "anchors": ["src/http/http_req.c:web_req_line", "src/http/http_req.c:web_req_hdrs"]}
{"id": "C32", "title": "HTTP request handling does not depend on segmentation", "statement": "A request split across several receives is handled as if it had arrived in one piece; the worker stays responsive while it waits.", "quantifier": "every request and every segmentation", "why_tests_cant": "All segmentations.", "anchors": ["src/http/http_req.c:web_req_line", "src/http/http_req.c:web_req_hdrs"]}
{"id": "C33", "title": "The web server never serves files outside its root", "statement": "A request target that contains a parent directory component is refused; the path opened always starts with the configured root.", "quantifier": "every request target", "why_tests_cant": "All targets, including very long ones.", "anchors": ["src/app/webser.c"]}
{"id": "C34", "title": "Static files are sent completely and in order", "statement": "The response to a file request is the header followed by exactly the bytes of the file, for every pattern of short reads and short writes.", "quantifier": "every file content and every I/O schedule", "why_tests_cant": "Unbounded schedules.", "anchors": ["src/app/webser.c:webser_rsp_payload_send_ff"]}
{"id": "C35", "title": "Content types follow the extension table", "statement": "The content type announced for a file is the one of the table entry for its extension and text/plain otherwise.", "quantifier": "every path", "why_tests_cant": "All paths.", "anchors": ["src/app/webser.c:webser_rsp_mime"]}
{"id": "C36", "title": "API requests are dispatched on exact path and method", "statement": "A request reaches an API handler iff a handler is registered for exactly that path, and is run only if the method matches.", "quantifier": "every path, every set of registered handlers", "why_tests_cant": "All paths and registrations.", "anchors": ["src/app/webser.c"]}
{"id": "C37", "title": "Freed connections are never dispatched", "statement": "Once a connection is released, no event of the batch being processed calls a handler for it.", "quantifier": "every batch of events and every pattern of releases performed by handlers", "why_tests_cant": "Order of events in a batch is chosen by the kernel.", "anchors": ["src/common/event.c:ev_loop", "src/common/event.c:ev_free"]}
{"id": "C38", "title": "Every reported readiness event reaches its handler", "statement": "If the kernel reports readiness for a connection that is not released, its handler is called in that batch.", "quantifier": "every batch and every history of earlier batches", "why_tests_cant": "Stale bookkeeping from earlier batches only matters in particular histories.", "anchors": ["src/common/event.c:ev_loop", "src/common/event.c:ev_free"]}
{"id": "C39", "title": "The kernel interest set follows the requested interest", "statement": "After a successful interest change the kernel watches the descriptor for exactly the requested events, edge triggered; after removal it watches it no longer.", "quantifier": "every sequence of interest changes", "why_tests_cant": "All sequences.", "anchors": ["src/common/event.c:ev_epoll_opt"]}
{"id": "C40", "title": "TLS I/O restores the connection's callbacks", "statement": "After a TLS read, write or handshake that had to wait for the opposite readiness completes, the connection's interest and both callbacks are those the application installed.", "quantifier": "every interleaving of want-read/want-write outcomes with application callback changes", "why_tests_cant": "Renegotiation style outcomes are rare and timing dependent.", "anchors": ["src/common/ssl.c:ssl_read", "src/common/ssl.c:ssl_write", "src/common/ssl.c:ssl_handshake"]}
{"id": "C41", "title": "The supervisor keeps the configured number of workers", "statement": "While not stopping, every worker that exits is replaced in the same slot; when stopping, no worker is started and the master exits exactly when all workers have exited.", "quantifier": "every sequence of exits and signals", "why_tests_cant": "Signal timing.", "anchors": ["src/common/process.c"]}
{"id": "C42", "title": "The ring buffer is a FIFO", "statement": "Bytes come out of the ring buffer in the order they went in, never more than were put in, and pushes larger than the free space are refused.", "quantifier": "every sequence of pushes and pulls", "why_tests_cant": "Wrap-around states need particular histories.", "anchors": ["src/common/ringbuffer.c"]}
{"id": "C43", "title": "The search tree behaves like a finite map", "statement": "Find returns a key's node iff it was inserted and not deleted since; deletion removes exactly that key and terminates.", "quantifier": "every sequence of insertions, deletions and lookups", "why_tests_cant": "All shapes and sequences.", "anchors": ["src/common/util/bst.c"]}
{"id": "C44", "title": "Log lines stay inside their buffer", "statement": "Formatting a log line never reads or writes outside the line buffer, whatever the message length.", "quantifier": "every message", "why_tests_cant": "All lengths.", "anchors": ["src/common/log.c"]}
{"id": "C45", "title": "Substring search finds exactly the occurrences inside the text", "statement": "The search returns the first position where the pattern occurs inside the given text length and reports absence otherwise, without reading outside the text.", "quantifier": "every text and every pattern", "why_tests_cant": "All strings.", "anchors": ["src/common/sys_string.c:l_find_str"]}
{"id": "C46", "title": "A TLS client hello is told apart from the secret protocol", "statement": "The first bytes of a connection decide whether TLS is spoken; the decision waits until enough bytes are there and consumes none of them.", "quantifier": "every byte stream and segmentation", "why_tests_cant": "All streams.", "anchors": ["src/common/net.c:net_check_ssl_valid"]}
{"id": "C47", "title": "Session resources are released exactly once", "statement": "For every way a session can end, its client connection, upstream connection, resolver and session record are each released exactly once and no callback runs on a released session.", "quantifier": "every schedule of events, timeouts and failures", "why_tests_cant": "Lifetime bugs depend on schedules.", "anchors": ["src/app/socks5.c", "src/app/tls_tunnel_s.c", "src/dns/dns.c:dns_free", "src/common/net.c:net_free"]}
{"id": "C48", "title": "The client tunnel preserves early data", "statement": "Bytes the local application sends before the tunnel is established are forwarded after the authorisation header, in order and without loss; if the cache fills up the connection is closed instead of dropping data.", "quantifier": "every schedule of local data and upstream handshake progress", "why_tests_cant": "Timing of two connections.", "anchors": ["src/app/tls_tunnel_c.c"]}
{"id": "C49", "title": "JSON string literals decode to UTF-8", "statement": "Parsing the JSON encoding of a string yields that string: escapes, BMP code points and surrogate pairs decode to the UTF-8 bytes of the code point; lone surrogates are rejected.", "quantifier": "every string and every code point", "why_tests_cant": "All strings and all 1.1 million code points.", "anchors": ["src/common/cJSON.c:parse_string", "src/common/cJSON.c:utf16_literal_to_utf8", "src/common/cJSON.c:parse_hex4"]}
{"id": "C50", "title": "JSON parsing stays inside its input", "statement": "Parsing never reads outside the given buffer, always terminates and accepts at most the nesting limit.", "quantifier": "every buffer", "why_tests_cant": "All inputs.", "anchors": ["src/common/cJSON.c:parse_value", "src/common/cJSON.c:parse_array", "src/common/cJSON.c:parse_object"]}
{"id": "C51", "title": "Growable sequences keep insertion order", "statement": "The list and array containers return the i-th inserted element for index i and nothing outside the range.", "quantifier": "every sequence of insertions and lookups", "why_tests_cant": "All sequences.", "anchors": ["src/common/util/list.c", "src/common/util/arr.c"]}
{"id": "C52", "title": "Bytes sent right after the authorisation header are not lost", "statement": "Bytes a client sends after its 36-byte authorisation header are seen by the SOCKS5 greeting parser, however the stream is cut into segments.", "quantifier": "every stream starting with an accepted header, every segmentation", "why_tests_cant": "Loss depends on how TCP happens to coalesce segments.", "anchors": ["src/app/tls_tunnel_s.c:tls_tunnel_s_auth_chk"]}
{"id": "C53", "title": "No request can end a web worker", "statement": "Whatever bytes a client sends on a web connection, the worker process neither crashes nor aborts nor writes outside its buffers.", "quantifier": "every byte stream, every file system", "why_tests_cant": "All byte streams; the dangerous ones are malformed or extreme.", "anchors": ["src/app/webser.c:webser_req_router", "src/app/webser.c:webser_req_file", "src/app/web_api.c:wapi_echo_post", "src/http/http_req.c"]}
{"id": "C54", "title": "Every response has a well-formed status line", "statement": "For every response code, the status line is ended by CRLF before the first header field.", "quantifier": "every response code", "why_tests_cant": "Clients parse the line; wrong codes are rarely exercised.", "anchors": ["src/app/webser.c:webser_rsp"]}
{"id": "C55", "title": "The shared port serves tunnel clients and web clients", "statement": "On the TLS port in secret mode, a connection whose first bytes are the tunnel header is handed to the tunnel with all its bytes, and any other connection is served as a web connection with all its bytes.", "quantifier": "every byte stream and segmentation", "why_tests_cant": "Depends on how the first bytes are segmented.", "anchors": ["src/app/webser.c:webser_transfer_to_tlstunnel", "src/app/webser.c:webser_start"]}
{"id": "C56", "title": "Keep-alive connections use bounded memory and keep pipelined requests", "statement": "However many requests a connection makes, the buffers allocated for it are all released when it closes, and bytes received beyond the end of a request are used for the next one.", "quantifier": "every number of requests, every amount of pipelined data", "why_tests_cant": "Leaks show after many requests only.", "anchors": ["src/app/webser.c:webser_keepalive", "src/app/webser.c:webser_start", "src/common/net.c:net_free_direct"]}
{"id": "C57", "title": "Request bodies up to the documented limit are accepted", "statement": "A POST body is accepted if and only if its announced length is at most 10 MiB.", "quantifier": "every announced length", "why_tests_cant": "All lengths.", "anchors": ["src/http/http_req.c:web_req_payload", "src/common/mem.c:mem_pool_alloc"]}
{"id": "C58", "title": "A TLS failure on one connection does not stop the worker", "statement": "Whatever fails while one TLS connection is set up or used, later operations on other connections of the same worker return.", "quantifier": "every sequence of TLS operations with any outcomes", "why_tests_cant": "Needs a failing OpenSSL call followed by unrelated traffic.", "anchors": ["src/common/ssl.c:ssl_clear_error", "src/common/ssl.c:ssl_create_connection", "src/common/ssl.c:ssl_load_con_certificate"]}
{"id": "C59", "title": "A reload request reaches every worker", "statement": "When the master receives SIGHUP while it is not stopping, every running worker is told to stop once, whenever the signal arrives and whichever workers have exited before.", "quantifier": "every set of workers, every history of exits and signals, every instant of arrival", "why_tests_cant": "Depends on the instant a signal arrives and on failed forks.", "anchors": ["src/common/process.c:proc_master_run", "src/common/process.c:proc_signal_bcast", "src/common/process.c:proc_signal_cb"]}
{"id": "C60", "title": "Log lines carry the level of the message", "statement": "Every log line names the level of the call that wrote it: error lines say error, info lines say info, debug lines say debug.", "quantifier": "every message and every level", "why_tests_cant": "All messages.", "anchors": ["src/common/log.c", "src/common/log.h"]}
{"id": "C61", "title": "Freeing the search tree releases every node", "statement": "After freeing a tree built by any insertions every inserted node has been released exactly once.", "quantifier": "every sequence of insertions", "why_tests_cant": "All insertion sequences.", "anchors": ["src/common/util/bst.c:bst_free", "src/common/util/bst.c:bst_add"]}
{"id": "C62", "title": "Decoding a JSON string stays within its allocation", "statement": "Whatever bytes a JSON text holds, decoding a string literal writes only inside the memory allocated for it and reads only inside the text.", "quantifier": "every text and every position", "why_tests_cant": "The allocation is computed from the number of backslashes; only a proof covers all mixes of escapes.", "anchors": ["src/common/cJSON.c:parse_string", "src/common/cJSON.c:utf16_literal_to_utf8"]}
{"id": "C63", "title": "Every JSON document is read as written", "statement": "Every JSON text nested at most 1000 deep, with any white space around its tokens, is accepted and yields exactly the value it denotes, in order and with all members.", "quantifier": "every JSON text", "why_tests_cant": "All documents.", "anchors": ["src/common/cJSON.c:parse_value", "src/common/cJSON.c:parse_array", "src/common/cJSON.c:parse_object", "src/common/cJSON.c:parse_number"]}
{"id": "C64", "title": "Absolute request lines are split exactly", "statement": "A request whose line has the absolute form METHOD scheme://host[:port]/path VERSION yields to the handlers exactly its method, scheme, host, port (none if absent), path, version and header fields.", "quantifier": "every valid absolute request line with any header fields", "why_tests_cant": "All lines and header fields.", "anchors": ["src/http/http_req.c:web_req_line"]}
{"id": "C65", "title": "Only text is accepted in a request head", "statement": "Whatever bytes arrive and however they are cut, every byte of an accepted request head is a printable ASCII character, DEL, CR or LF.", "quantifier": "every byte stream and every segmentation", "why_tests_cant": "All byte streams.", "anchors": ["src/http/http_req.c:web_req_line", "src/http/http_req.c:web_req_hdrs"]}
{"id": "C66", "title": "The announced length decides the body", "statement": "The body handed to a handler is exactly the number of bytes announced by the Content-Length field; without such a field the body is empty; lengths that are negative, not numbers or above ten MiB are refused.", "quantifier": "every request head, every length and every segmentation of the body", "why_tests_cant": "All lengths, names and segmentations, including values near integer limits.", "anchors": ["src/http/http_req.c:web_req_payload"]}
{"id": "C67", "title": "Keep-alive is honoured exactly when requested", "statement": "A connection is kept open after a request if and only if the request has a Connection field with the value keep-alive, in any case of letters.", "quantifier": "every request head", "why_tests_cant": "All header fields, including near misses.", "anchors": ["src/http/http_req.c:web_req_hdrs"]}
{"id": "C68", "title": "Messages are filtered by level and written to their file", "statement": "A message is written exactly when its level is at most the configured one; it then appears once on standard output and once in the log file of its kind if that file is open, and nowhere else.", "quantifier": "every level, configured level, kind of message and state of the files", "why_tests_cant": "All combinations and all texts.", "anchors": ["src/common/log.c:log_print"]}
{"id": "C69", "title": "The configuration in force is the one in the file", "statement": "After start-up every setting has the value the configuration file gives it, and its default if the file does not mention it, whatever the order of the members, the white space, further members, and however the file is delivered by the system.", "quantifier": "every configuration file, every split of the reads", "why_tests_cant": "All JSON documents and all settings; the faults appear for particular types, lengths and numbers.", "anchors": ["src/common/config.c:config_init", "src/common/config.c:config_parse", "src/common/cJSON.c:cJSON_GetObjectItem"]}
{"id": "C70", "title": "An unusable configuration stops the program", "statement": "If the configuration file is missing, cannot be read or is not valid JSON, start-up fails and says so; the outcome does not depend on how the system splits the reads.", "quantifier": "every file content, every result of stat, open and read", "why_tests_cant": "All files and all system call results, including a file that changes while it is read.", "anchors": ["src/common/config.c:config_init"]}
{"id": "C71", "title": "Every configured port is served", "statement": "After successful start-up exactly the configured ports accept connections, each with the handler of its kind; if one of them cannot be bound, start-up fails.", "quantifier": "every configuration and every result of bind and listen", "why_tests_cant": "All numbers of ports and all combinations of kinds.", "anchors": ["src/common/listen.c:listen_init", "src/common/listen.c:listen_start", "src/common/config.c:config_parse"]}
{"id": "C72", "title": "The keys in force are the keys in the file", "statement": "After successful start-up the keys that admit clients are exactly the strings in the key file, and a client configured with one of them is admitted.", "quantifier": "every key file, every result of read", "why_tests_cant": "All files, of every length, and all types of entries.", "anchors": ["src/app/tls_tunnel_s.c:tls_tunnel_s_auth_init", "src/app/tls_tunnel_s.c:tls_tunnel_s_auth_fread", "src/app/tls_tunnel_s.c:tls_tunnel_s_auth_fparse"]}
{"id": "C73", "title": "A client reads the response the server meant", "statement": "A client that parses a response by the rules of HTTP obtains the status, the header fields and exactly the bytes of the file, or exactly the payload of the API, and after a kept-open connection the next response starts where this one ends; a response is never cut short.", "quantifier": "every file type, file size and content, payload and clock", "why_tests_cant": "All sizes, including those beyond two gigabytes, and all contents.", "anchors": ["src/app/webser.c:webser_rsp", "src/app/webser.c:webser_rsp_payload_send", "src/app/webser.c:webser_rsp_hdrp"]}
{"id": "C74", "title": "The status tells what happened to the file", "statement": "The status is 200 if the file is sent, 404 if there is no such file, and 500 if it cannot be opened or its type is unknown.", "quantifier": "every path and result of stat and open", "why_tests_cant": "All results of the system calls.", "anchors": ["src/app/webser.c:webser_req_file", "src/app/webser.c:webser_rsp"]}
{"id": "C75", "title": "The Date header is the current date", "statement": "The text of the Date header, read as an HTTP date, gives the day, month, year and time of the clock.", "quantifier": "every clock value of the years 0 to 9999", "why_tests_cant": "All dates.", "anchors": ["src/common/sys_time.c:systime_update"]}
{"id": "C76", "title": "Log lines carry the local time", "statement": "The time stamp of a log line, read back, gives the date and time of the clock to the second.", "quantifier": "every clock value", "why_tests_cant": "All dates, including those far away.", "anchors": ["src/common/sys_time.c:systime_update"]}
{"id": "C77", "title": "Timers last as long as they should", "statement": "A timer's callback runs no earlier than its delay after it was armed, and no later than that plus the time the worker was busy with other things; a worker never sleeps past a deadline.", "quantifier": "every sequence of turns of the worker loop, every behaviour of callbacks and handlers, every clock", "why_tests_cant": "All interleavings and all clock adjustments; tests run with a clock that is not set.", "anchors": ["src/common/timer.c:timer_expire", "src/common/process.c:proc_worker_run", "src/common/event.c:ev_loop", "src/common/sys_time.c:systime_update"]}
{"id": "C78", "title": "Stop and reload reach the running program", "statement": "Running the program with -stop or -reload sends the corresponding signal to the running instance and to no other process, at any time while it runs; any other argument sends nothing.", "quantifier": "every command line, every pid, every history of starts, ends, reloads and kills", "why_tests_cant": "All histories; the fault appears only at the second command.", "anchors": ["src/main.c:option_parse", "src/main.c:proc_pid_create", "src/common/process.c:proc_pid_form_file", "src/main.c:main"]}
{"id": "C79", "title": "Idle tunnels are closed, busy ones are not", "statement": "A tunnel session in which nothing happens for ten seconds is closed, and one in which bytes keep moving is not closed by its timers.", "quantifier": "every schedule of data, blocked sockets and expiry passes", "why_tests_cant": "All timings; the timers are set from four handlers and only some schedules reach all of them.", "anchors": ["src/app/tls_tunnel_s.c:tls_tunnel_traffic_recv", "src/app/tls_tunnel_s.c:tls_tunnel_traffic_send", "src/app/tls_tunnel_s.c:tls_tunnel_traffic_reverse_recv", "src/app/tls_tunnel_s.c:tls_tunnel_traffic_reverse_send", "src/app/tls_tunnel_s.c:tls_ses_exp"]}
{"id": "C80", "title": "Every new connection gets its handler", "statement": "Each connection that clients open to a listening port is handed to its handler exactly once, in the order of arrival, without waiting for further connections; none is taken twice.", "quantifier": "every sequence of arrivals and turns of the worker loop, every result of accept, of allocation and of the socket options", "why_tests_cant": "Edge-triggered notification loses connections only when a call fails at the right moment.", "anchors": ["src/common/net.c:net_accept", "src/common/event.c:ev_opt", "src/common/event.c:ev_loop"]}
{"id": "C81", "title": "The selected SOCKS5 method was offered", "statement": "The answer to a greeting selects one of the methods the client offered, or FF if none is acceptable.", "quantifier": "every greeting of every length", "why_tests_cant": "All sets of offered methods; test clients offer the usual one.", "anchors": ["src/app/socks5.c:s5_p1_req", "src/app/socks5.c:s5_p1_rsp"]}
{"id": "C82", "title": "A SOCKS5 session works whatever the segmentation", "statement": "From the authorisation header to the relay, a session serves what the client sent however its bytes are cut into records and however reading, writing and connecting interleave: no byte is lost, the answers are read in order, the requested destination is connected to, and the session never gets stuck.", "quantifier": "every client stream, every segmentation, every interleaving of arrivals, reads, partial writes and the upstream connection", "why_tests_cant": "The number of segmentations and interleavings is unbounded.", "anchors": ["src/app/tls_tunnel_s.c:tls_tunnel_s_auth_chk", "src/app/socks5.c:s5_p1_req", "src/app/socks5.c:s5_p2_req", "src/app/socks5.c:s5_p2_rsp"]}
{"id": "C83", "title": "The client is told whether its request was served", "statement": "Success is reported only when the upstream connection is established, and a request that cannot be served gets a reply with a reason.", "quantifier": "every request, every failure of resolving and connecting, every interleaving", "why_tests_cant": "All failures at all points of the session.", "anchors": ["src/app/socks5.c:s5_p2_req", "src/app/socks5.c:s5_p2_rsp"]}
{"id": "C84", "title": "Web connections give back what they took", "statement": "Nothing that belongs to a connection of the web server is released twice or used after its release, and when the connection is closed all its memory has been given back and its files are closed.", "quantifier": "every sequence of requests, bodies, answers, errors and failing allocations", "why_tests_cant": "Allocation failures at every point and connections of any length.", "anchors": ["src/app/webser.c:web_release_c", "src/app/webser.c:webser_keepalive", "src/app/webser.c:webser_start", "src/app/webser.c:webser_rsp", "src/app/webser.c:webser_rsp_hdrp", "src/http/http_req.c:web_req_free", "src/common/net.c:net_free"]}
{"id": "C85", "title": "Clients have time to send their first bytes", "statement": "A connection on which the client sends its first bytes within a reasonable time is handed to its handler and not closed by the timer set when it was accepted.", "quantifier": "every timing of the first bytes and of the worker's expiry passes", "why_tests_cant": "Tests run on one host, where the first bytes follow at once.", "anchors": ["src/common/net.c:net_accept", "src/common/net.c:net_exp"]}
{"id": "C86", "title": "Nothing happens for peers that are not admitted", "statement": "A peer whose header is not admitted receives no byte and none of its bytes reaches an upstream; what reaches an upstream of an admitted peer is a contiguous part of its stream.", "quantifier": "every stream, every segmentation, every set of admitted headers, every interleaving", "why_tests_cant": "All streams and interleavings.", "anchors": ["src/app/tls_tunnel_s.c:tls_tunnel_s_auth_chk", "src/app/socks5.c:s5_p2_rsp"]}
{"id": "C87", "title": "Timers belong to connections that exist", "statement": "A timer is touched only while the connection it belongs to exists and never fires for a connection that was freed; arming a timer is never refused for want of room; a connection that cannot be created leaves nothing behind.", "quantifier": "every history of opening, closing, arming, cancelling, expiry passes whose callbacks do any of this, other use of the pool, and every movement of the clock", "why_tests_cant": "Use after free through a stale timer needs a particular order of events, and the limits are reached with a thousand connections only.", "anchors": ["src/common/net.c:net_alloc", "src/common/net.c:net_free_direct", "src/common/timer.c:tm_add", "src/common/timer.c:timer_expire", "src/common/mem.c:mem_pool_alloc"]}
{"id": "C88", "title": "A failed start is reported and leaves no PID file", "statement": "If the program does not come to run, the started command ends with a failure status and no PID file is left; if it runs, the PID file holds the number of the process that runs.", "quantifier": "every combination of failing system calls, foreground and daemon", "why_tests_cant": "Failures of fork, setsid, open, dup2 and write do not occur in tests.", "anchors": ["src/main.c:main", "src/main.c:proc_daemon", "src/main.c:proc_pid_create", "src/common/modules.c:modules_core_init"]}
{"id": "C89", "title": "A running worker has everything it needs", "statement": "A worker that enters its loop has a pool, a timer heap, an event queue, a resolver, a web server and, in server mode, its keys; otherwise it does not run.", "quantifier": "every combination of failing allocations and system calls at the start of a worker, every key file", "why_tests_cant": "Failures at start do not occur in tests and their effects show at the first request only.", "anchors": ["src/common/modules.c:modules_process_init", "src/common/process.c:proc_worker_run", "src/app/tls_tunnel_s.c:tls_tunnel_s_init", "src/app/webser.c:webser_init", "src/dns/dns.c:dns_init"]}
{"id": "C90", "title": "Stopping frees each node of the key matcher once", "statement": "When a worker ends, every node of the matcher is freed exactly once, and the stack used for it does not overflow.", "quantifier": "every content of the key file and every result of reading it", "why_tests_cant": "Needs all shapes of the trie.", "anchors": ["src/common/aho_corasick.c:ezac_free"]}
{"id": "C91", "title": "The two hosts together are a transparent path", "statement": "A program that speaks SOCKS5 through tunnel client and server, waiting for each answer, reaches exactly the host and port it asked for; the destination gets exactly the program's data and the program exactly the two answers and the destination's data, each in order and unaltered; as long as nothing fails everything arrives.", "quantifier": "every accepted key, destination, greeting, data in both directions, cutting into writes, records and reads, interleaving, and every failure", "why_tests_cant": "The interleavings of two hosts, a network and two peers cannot be enumerated by tests, nor can the ways data is cut.", "anchors": ["src/app/tls_tunnel_c.c:tls_tunnel_c_recv", "src/app/tls_tunnel_c.c:tls_tunnel_c_auth_send", "src/app/tls_tunnel_s.c:tls_tunnel_s_auth_chk", "src/app/tls_tunnel_s.c:tls_tunnel_traffic_recv", "src/app/tls_tunnel_s.c:tls_tunnel_traffic_send", "src/app/tls_tunnel_s.c:tls_tunnel_traffic_reverse_recv", "src/app/tls_tunnel_s.c:tls_tunnel_traffic_reverse_send", "src/app/socks5.c:s5_p1_req", "src/app/socks5.c:s5_p2_req", "src/app/socks5.c:s5_p2_rsp"]}
{"id": "C92", "title": "A reload puts the files as they are now in force", "statement": "After a reload every worker works with the configuration and with the keys that are in the files at that time.", "quantifier": "every number of workers, every order of exits and signals, every content of the two files at every time", "why_tests_cant": "Needs all orders of exits, signals and edits of the files.", "anchors": ["src/common/process.c:proc_master_run", "src/common/process.c:proc_fork", "src/common/config.c:config_init", "src/app/tls_tunnel_s.c:tls_tunnel_s_init"]}
{"id": "C93", "title": "Every process has its entry and knows what it is", "statement": "For every configured number of workers the process table has an entry for each; a worker never takes itself for the master, and ends when it is told to.", "quantifier": "every number of workers", "why_tests_cant": "The limits lie at 256 and at hundreds of millions of workers.", "anchors": ["src/common/process.c:process_init", "src/common/process.c:proc_fork", "src/common/process.c:proc_master_run", "src/common/shm.c:sys_shm_alloc"]}
{"id": "C94", "title": "A signal never finds the process without its state", "statement": "Whenever a signal arrives from the first handler on until the process has ended, the handler finds the context it uses, and every signal is dealt with once.", "quantifier": "every sequence of signals at every point of the life of the master, a worker, or a program without workers", "why_tests_cant": "The windows are a few instructions long.", "anchors": ["src/common/process.c:proc_signal_cb", "src/common/process.c:proc_signal_init", "src/common/process.c:process_init", "src/common/process.c:process_end", "src/common/process.c:proc_worker_run", "src/common/process.c:proc_master_run"]}
{"id": "C95", "title": "A stop request ends the worker soon", "statement": "A worker that is told to stop leaves its loop as soon as the handlers that are running have returned, whatever it was doing.", "quantifier": "every moment of the request, every clock, every sequence of timers, waits and handlers", "why_tests_cant": "The moment between the look at the flag and the wait cannot be hit by a test.", "anchors": ["src/common/process.c:proc_worker_run", "src/common/process.c:proc_signal_cb", "src/common/event.c:ev_epoll_loop", "src/common/timer.c:timer_expire"]}
{"id": "C96", "title": "The select build reports every ready connection", "statement": "In a build without epoll every turn of the loop calls the handlers of exactly those live connections that are ready for what they wait for, each once, and no table is overrun.", "quantifier": "every history of connections opened, closed and changed, inside handlers too; every descriptor number; every readiness", "why_tests_cant": "Needs histories with closed and reused descriptors and hundreds of connections.", "anchors": ["src/common/event.c:ev_select_loop", "src/common/event.c:ev_select_opt", "src/common/event.c:ev_loop", "src/common/event.c:ev_alloc", "src/common/event.c:ev_free"]}
{"id": "C97", "title": "A stopping process gives everything back once", "statement": "A worker or master that stops uses nothing after its release, releases everything it had exactly once, closes each descriptor once, and has sent everything it had accepted.", "quantifier": "every result of every call while starting, every set of listening sockets, every content of the key file, every unsent data", "why_tests_cant": "Needs all combinations of failures at the start, and the inside of the exit path.", "anchors": ["src/common/modules.c:modules_pocess_exit", "src/common/modules.c:modules_core_exit", "src/common/event.c:ev_exit", "src/common/listen.c:listen_end", "src/common/mem.c:mem_pool_deinit", "src/app/tls_tunnel_s.c:tls_tunnel_s_exit"]}
{"id": "C98", "title": "Every TLS connection is set up as configured", "statement": "Every server connection carries the certificate and key of the configured files, versions and ciphers are limited to the listed ones, a client talks only to the server that was meant, and failed attempts give everything back.", "quantifier": "every history of connections created and released, every result of every OpenSSL call, every content of the files at every time", "why_tests_cant": "Needs failures of OpenSSL calls and their effect on later connections.", "anchors": ["src/common/ssl.c:ssl_create_connection", "src/common/ssl.c:ssl_load_ctx_certificate", "src/common/ssl.c:ssl_load_con_certificate", "src/common/ssl.c:ssl_end", "src/common/net.c:net_free_direct"]}
{"id": "C99", "title": "A configuration text is read only as what is written in it, and one that is cut short is refused", "statement": "The JSON parser accepts a text only if it is a JSON text (RFC 8259), and returns the value that is written there. A text that ends before its array or object is closed is refused.", "quantifier": "For all texts, all values, all places where a text can be cut, and every conversion of numbers that takes a prefix", "why_tests_cant": "There are infinitely many texts that are not JSON, and infinitely many documents with as many places to cut them; accepting a wrong one shows only as a wrong configuration.", "anchors": ["src/common/cJSON.c:615-899 parse_hex4, utf16_literal_to_utf8, parse_string", "src/common/cJSON.c:305-379 parse_number", "src/common/cJSON.c:1038-1178 buffer_skip_whitespace, skip_utf8_bom, cJSON_ParseWithLengthOpts", "src/common/cJSON.c:1312-1364 parse_value", "src/common/cJSON.c:1441-1711 parse_array, parse_object"]}
{"id": "C100", "title": "The configured workers run under a master that can be reached, or the start is reported as failed", "statement": "After the start either all configured workers run under a master that supervises them and that -stop and -reload reach, or the started command ends with a failure status and leaves nothing running. Without workers the process itself serves, stops on -stop and takes a new configuration on -reload.", "quantifier": "For every number of workers, every result of every fork and of blocking the signals, every later history of commands, and every sequence of signals", "why_tests_cant": "A fork fails only when the system is out of processes or memory, and at which one it fails cannot be chosen in a test.", "anchors": ["src/common/process.c:proc_master_run", "src/common/process.c:proc_fork", "src/common/process.c:proc_worker_run", "src/common/process.c:proc_signal_cb", "src/main.c:main"]}
{"id": "C101", "title": "Sessions in one worker never mix their data", "statement": "Any number of sessions share one worker and one memory pool. What each session sends to its target and to its client, and how it ends, does not depend on the other sessions or on what the rest of the worker does with the pool; no byte of one session reaches a peer of another. A session that ends gives its buffers back.", "quantifier": "For every number of sessions, every order of starts, events and ends, every result of every recv and send, every allocation, release and store of the rest of the program between them", "why_tests_cant": "Needs every interleaving of many sessions with reuse of buffers; a mix-up shows only when a reused buffer still belongs to someone.", "anchors": ["src/app/tls_tunnel_s.c:tls_tunnel_traffic_proc", "src/app/tls_tunnel_s.c:tls_tunnel_traffic_recv", "src/app/tls_tunnel_s.c:tls_tunnel_traffic_send", "src/common/meta.c:meta_alloc", "src/common/meta.c:meta_free", "src/common/mem.c:mem_pool_alloc", "src/common/mem.c:mem_pool_free"]}
{"id": "C102", "title": "The relay works over TLS as it does over plain connections", "statement": "One connection of every session uses TLS, whose layer exchanges callbacks and interest while it waits. Each direction is still delivered in order, complete, without anything inserted; whenever data can move, what moves it is registered; the worker never calls NULL.", "quantifier": "For both roles, every result of every TLS read and write including reads that wait for writing and writes that wait for reading, every result of the plain connection, and every sequence of events the system can report", "why_tests_cant": "The failures need a write that blocks while the other direction is busy, renegotiation or a key update at the right moment, and edge-triggered reports lost between two system calls.", "anchors": ["src/common/ssl.c:ssl_read", "src/common/ssl.c:ssl_write", "src/common/ssl.c:ssl_read_cb", "src/common/ssl.c:ssl_write_cb", "src/app/tls_tunnel_s.c:tls_tunnel_traffic_proc", "src/app/tls_tunnel_s.c:tls_tunnel_traffic_recv", "src/app/tls_tunnel_s.c:tls_tunnel_traffic_send", "src/app/tls_tunnel_s.c:tls_tunnel_traffic_reverse_recv", "src/app/tls_tunnel_s.c:tls_tunnel_traffic_reverse_send", "src/app/socks5.c:s5_p2_rsp", "src/app/tls_tunnel_c.c:tls_tunnel_c_auth_send", "src/common/event.c:ev_epoll_opt"]}
{"id": "C103", "title": "A response that has to wait is continued when the connection can take more", "statement": "A response of the web server that the connection does not take at once is continued as soon as the connection can take more, with and without TLS, until it was sent whole; at any time a beginning of it was sent. It is cut only if the connection fails or its peer does not take anything for the time allowed.", "quantifier": "For every header, file and payload, every result of every send and read including TLS writes that wait for reading, every interest and callbacks before, and every sequence of events the system can report", "why_tests_cant": "On a local network the kernel takes most responses at once; a test would need a slow client and a response larger than the socket's buffer, and cannot try all points at which a send waits.", "anchors": ["src/app/webser.c:webser_rsp", "src/app/webser.c:webser_rsp_hdr_send", "src/app/webser.c:webser_rsp_payload_send_ff", "src/app/webser.c:webser_rsp_payload_send_api", "src/app/webser.c:webser_try_read", "src/common/net.c:net_accept", "src/common/net_send.c:send_chains", "src/common/ssl.c:ssl_write", "src/common/ssl.c:ssl_write_chain", "src/common/event.c:ev_epoll_opt"]}
{"id": "C104", "title": "Every wait of the server's exchange over TLS continues the step that was waiting", "statement": "A client connects, the TLS handshake is made, its authentication and its requests are read, the replies are sent and the relay begins. Whenever the TLS layer has to wait, for reading or for writing and whichever the step itself needs, what it waits for is registered, and when it happens the step that was waiting is called again, never an earlier or later one. What the session does is the same as over a connection that never waits.", "quantifier": "For every result of every TLS call, every sequence of events the system can report, every content and segmentation of what the client sends, and every result of connecting to the target", "why_tests_cant": "A TLS read that waits for writing, or a write that waits for reading, needs a full socket buffer or a key update at the right moment; there are as many places as calls.", "anchors": ["src/app/tls_tunnel_s.c:tls_tunnel_s_accept", "src/app/tls_tunnel_s.c:tls_tunnel_s_auth_chk", "src/app/tls_tunnel_s.c:tls_tunnel_s_start", "src/app/socks5.c:s5_p1_req", "src/app/socks5.c:s5_p1_rsp", "src/app/socks5.c:s5_p2_req", "src/app/socks5.c:s5_p2_rsp", "src/app/socks5.c:s5_try_read", "src/common/ssl.c:ssl_handshake", "src/common/ssl.c:ssl_read", "src/common/ssl.c:ssl_write", "src/common/event.c:ev_opt"]}
{"id": "C105", "title": "The tunnel client reaches its relay over TLS whatever has to wait", "statement": "From the accepted local connection until the relay begins, the tunnel client connects to its server, makes the TLS handshake and sends its header. Whenever a TLS call has to wait, for reading or for writing, what it waits for is registered, and when it happens the step that was waiting is called again and no other; NULL is never called. The server gets the header whole, once, and before anything else; what the local program sends meanwhile is kept, in order and unaltered.", "quantifier": "For every result of every TLS call in the handshake and afterwards, every sequence of events the system can report, every content and segmentation of what the local program sends, and every key", "why_tests_cant": "A handshake or header that waits for writing, or a write that waits for reading, needs a full socket buffer or a key update at the right moment.", "anchors": ["src/app/tls_tunnel_c.c:tls_tunnel_c_accept", "src/app/tls_tunnel_c.c:tls_tunnel_c_connect_chk", "src/app/tls_tunnel_c.c:tls_tunnel_c_connect_ssl", "src/app/tls_tunnel_c.c:tls_tunnel_c_auth_build", "src/app/tls_tunnel_c.c:tls_tunnel_c_auth_send", "src/app/tls_tunnel_c.c:tls_tunnel_c_recv", "src/common/ssl.c:ssl_handshake", "src/common/ssl.c:ssl_handshake_cb", "src/common/ssl.c:ssl_write", "src/common/net.c:net_connect", "src/common/event.c:ev_opt"]}
{"id": "C106", "title": "Requests on a kept connection over TLS are answered one by one, in order", "statement": "A client of the web server makes several requests on one TLS connection, asking for it to be kept. Each request is answered by one complete response with the content that was asked for, in the order of the requests, and the connection is kept until a request that does not ask for it. Whenever reading or writing has to wait, for either direction, what continues it is registered; callbacks of an earlier response never run in a later one.", "quantifier": "For every number and content of requests for files, the date and echoes, every result of every TLS read and write, every interest and callbacks before, every sequence of events the system can report, and every moment at which requests arrive", "why_tests_cant": "Stale callbacks show only when a read has to wait for writing or a write for reading in the right request of a connection; the number of combinations grows with every request.", "anchors": ["src/app/webser.c:webser_start", "src/app/webser.c:webser_req_proc", "src/app/webser.c:webser_req_router", "src/app/webser.c:webser_req_file", "src/app/webser.c:webser_rsp", "src/app/webser.c:webser_rsp_hdr_send", "src/app/webser.c:webser_rsp_payload_send_ff", "src/app/webser.c:webser_rsp_payload_send_api", "src/http/http_req.c:web_req_payload", "src/common/ssl.c:ssl_read", "src/common/ssl.c:ssl_write"]}
{"id": "C107", "title": "A TLS connection that is given up does nothing but close, tells its peer, and is released soon", "statement": "Once a TLS connection is given up, for whatever reason, none of its handlers and timers runs any more; the closing message of TLS is sent, so that the peer can tell the end of what was sent from a connection that was cut; and within a bounded time the connection is released, once.", "quantifier": "For every state of the connection, every result of every call of SSL_shutdown, every sequence and timing of events and of looks at the timers", "why_tests_cant": "A shutdown that has to wait, for reading or for writing, and a peer that keeps it waiting, are matters of timing; that nothing ever runs again is a statement about all continuations.", "anchors": ["src/common/net.c:net_free", "src/common/net.c:net_free_direct", "src/common/ssl.c:ssl_shutdown", "src/common/ssl.c:ssl_shutdown_cb", "src/common/ssl.c:ssl_cexp", "src/common/timer.c:tm_add", "src/common/net.h:NET_TMOUT", "src/common/ssl.h:SSL_TMOUT"]}
{"id": "C108", "title": "A client of the TLS port reaches the service it speaks to", "statement": "A connection accepted on the TLS port of the web server makes its handshake and is handed to the web server or, in secret mode when it begins with the header of the tunnel, to the tunnel, whatever the TLS layer has to wait for meanwhile. Nothing of what the client sent is lost on the way, and its requests are answered from the first one on.", "quantifier": "For both modes, every result of the handshake and of every TLS read and write, every sequence of events the system can report, and every content, segmentation and moment of arrival of what the client sends", "why_tests_cant": "Handshakes in tests hardly ever wait for writing, and the header and the first request arrive in one piece; the property is about every wait at every step between the two.", "anchors": ["src/app/webser.c:webser_accept_cb_ssl", "src/app/webser.c:webser_transfer_to_tlstunnel", "src/app/webser.c:webser_start", "src/app/tls_tunnel_s.c:tls_tunnel_s_start", "src/common/ssl.c:ssl_handshake", "src/common/ssl.c:ssl_handshake_cb", "src/common/ssl.c:ssl_read", "src/common/net.c:net_accept"]}
{"id": "C109", "title": "Nobody can keep a session of the tunnel server waiting before its relay begins", "statement": "From the moment a connection is accepted until its relay begins, a session of the tunnel server waits for its client, for the resolver or for the target. A silent client, resolver or target makes the session close after five or ten seconds, and no earlier; a client that sends as little as it can, as late as it can, is cut off after a bounded time, whatever it sends.", "quantifier": "For every behaviour of client, resolver and target at every step, every result of every call, every timing of events and of looks at the timers, every header check and content of the resolver's cache", "why_tests_cant": "The longest way through all steps takes hours, and how long a session can be kept is a question about all timings; a test waits for one timer.", "anchors": ["src/app/tls_tunnel_s.c:tls_tunnel_s_accept", "src/app/tls_tunnel_s.c:tls_tunnel_s_auth_chk", "src/app/tls_tunnel_s.c:tls_ses_exp", "src/app/socks5.c:s5_p1_req", "src/app/socks5.c:s5_p2_req", "src/app/socks5.c:s5_cup_addr", "src/app/socks5.c:s5_p2_rsp", "src/dns/dns.c:dns_request_send", "src/dns/dns.c:dns_response_recv", "src/common/ssl.c:ssl_handshake", "src/common/timer.c:tm_add", "src/app/tls_tunnel_s.h:TLS_TUNNEL_TMOUT"]}
{"id": "C110", "title": "Reading a JSON document gives back every block it took, whichever allocation fails", "statement": "The configuration and the user file are parsed into linked items on the heap, looked up and deleted. Whatever the text and whichever allocations fail, the parser touches no memory that is not there and frees nothing twice: it returns NULL with the heap as it was, or the document, in new blocks that are each used once; NULL comes only for a text that is not accepted or a failed allocation. Lookups by name and position find what the document says, and deleting it leaves the heap as it was before.", "quantifier": "For every byte string, every set of failing allocations, every content of the heap before and every name and position looked up", "why_tests_cant": "Each allocation of each document can fail, at every depth and in the middle of every list; a test makes a few of them fail, and a leak or a second free shows in no result.", "anchors": ["src/common/cJSON.c:cJSON_Delete", "src/common/cJSON.c:cJSON_New_Item", "src/common/cJSON.c:cJSON_ParseWithLengthOpts", "src/common/cJSON.c:parse_value", "src/common/cJSON.c:parse_string", "src/common/cJSON.c:parse_array", "src/common/cJSON.c:parse_object", "src/common/cJSON.c:get_object_item", "src/common/cJSON.c:get_array_item", "src/common/cJSON.c:cJSON_GetArraySize", "src/common/config.c:config_parse", "src/app/tls_tunnel_s.c:tls_tunnel_s_auth_fparse"]}
{"id": "C111", "title": "A web client cannot hold a connection that makes no progress", "statement": "Every connection of the web server that waits for its peer has a deadline five seconds ahead, set anew by every event: a silent client is closed five seconds after its last event, whatever phase it is in. As long as every event brings a byte of the request, or takes one of the response, the time for a request and for a response is bounded; and a plain connection whose response has to wait is closed five seconds after the response was started.", "quantifier": "For every history of records, readiness events and looks at the timers at all times, every sequence of TLS results, all requests and responses and every point of the connection's life", "why_tests_cant": "How long a connection can be kept is a question about all timings of all peers, over hours; a test waits for one timer of one phase.", "anchors": ["src/app/webser.c:webser_req_proc", "src/app/webser.c:webser_rsp_hdr_send", "src/app/webser.c:webser_rsp_payload_send_ff", "src/app/webser.c:webser_rsp_payload_send_api", "src/app/webser.c:webser_try_read", "src/app/webser.c:web_exp", "src/app/webser.h:WEB_TMOUT", "src/common/ssl.c:ssl_read", "src/common/ssl.c:ssl_write", "src/common/timer.c:tm_add"]}
{"id": "C112", "title": "No timer is forgotten: a timer that is left alone runs after a bounded time", "statement": "Cancelling a timer can put others out of order, so that a timer whose deadline has passed stays behind ones that are not due. However often that happens, a timer that was armed and is then left alone runs: once the timers are looked at later than its deadline plus, for each timer that exists, the longest delay in use and the longest time between two looks, its callback has been called.", "quantifier": "For every history of arming, re-arming and cancelling any of up to 1536 timers, in and outside callbacks, with a clock that does not go back, every longest delay and every longest time between two looks", "why_tests_cant": "Whether a deadline can be put off for ever is a question about all future operations on all other timers; a test runs one history, and most histories show no delay at all.", "anchors": ["src/common/timer.c:tm_add", "src/common/timer.c:tm_del", "src/common/timer.c:timer_expire", "src/common/util/bheap.c:heap_add", "src/common/util/bheap.c:heap_del", "src/common/util/bheap.c:heap_min", "src/common/process.c:proc_worker_run"]}
{"id": "C113", "title": "The encryption helpers give back what they sealed, and notice changes", "statement": "The two helpers for AES give back every message they encrypted, of the same length; the one with a tag refuses a message that does not fit its tag, and a context for it is used for one message only; a context is set up completely or given back completely. Two messages sealed with them show nothing of each other, and sixteen random bytes are sixteen random bytes when the return value says so.", "quantifier": "For every block cipher, key stream and tag function, every message, every change of it, every pattern of failing library calls and every result of reading the random device", "why_tests_cant": "Round trips and leaks are statements about all messages and all pairs of messages; a test encrypts a few, and a reused key stream looks random in each of them.", "anchors": ["src/common/sys_cipher.c:aes_cfb_encrypt", "src/common/sys_cipher.c:aes_cfb_decrypt", "src/common/sys_cipher.c:sys_aesgcm_enc", "src/common/sys_cipher.c:sys_aesgcm_dec", "src/common/sys_cipher.c:sys_aesgcm_ctx_init", "src/common/sys_cipher.c:sys_aesgcm_ctx_exit", "src/common/sys_cipher.c:sys_genrand_16byte"]}
{"id": "C114", "title": "Requests on a plain connection to the web server are answered one by one, in order", "statement": "On a connection to the web server without TLS, a client that sends requests - each with keep-alive, except perhaps the last - for files, for the date or for an echo gets exactly one response with status 200 and the wanted content for each of them, in the order of the requests, however the bytes arrive, and also if it ends its direction after the last request. No callback of another phase is ever called.", "quantifier": "For every list of requests, every cut of their bodies into pieces, every number of pieces each receive call gets, every order of the events, every environment (files, date, memory, results of send calls)", "why_tests_cant": "The number of requests and the ways their bytes can arrive are unbounded; what goes wrong (a full socket buffer, two requests in one piece, a line of exactly 4096 bytes) does not happen between programs on one machine that wait for each other.", "anchors": ["src/app/webser.c:webser_start", "src/app/webser.c:webser_req_proc", "src/app/webser.c:webser_rsp", "src/app/webser.c:webser_keepalive", "src/http/http_req.c:web_req_line", "src/http/http_req.c:web_req_payload", "src/common/net_send.c:recvs", "src/common/net_send.c:sends"]}
{"id": "C115", "title": "A document printed as JSON text reads back as the same document", "statement": "The JSON library prints every document, laid out for reading or not: the text is JSON, it is the text of that document and ends with the zero byte the block is long enough for, no memory outside the block is touched, and reading the text gives the same document. NULL comes only if memory runs out or the text exceeds two gigabytes; then nothing is left allocated.", "quantifier": "For every document of any size and depth, every spelling the C library gives numbers, every decimal point, every pattern of failing allocations, every content of new memory and every size the caller guesses", "why_tests_cant": "A printer and a parser agree on the documents a test contains; the strings, numbers and depths where they disagree, and the sizes where the block has to grow, form an unbounded set.", "anchors": ["src/common/cJSON.c:ensure", "src/common/cJSON.c:print_number", "src/common/cJSON.c:print_string_ptr", "src/common/cJSON.c:print_value", "src/common/cJSON.c:print_array", "src/common/cJSON.c:print_object", "src/common/cJSON.c:print", "src/common/cJSON.c:cJSON_PrintBuffered", "src/common/cJSON.c:cJSON_Parse"]}
{"id": "C116", "title": "Printing into a buffer of the caller stays in the buffer and succeeds if the text fits", "statement": "`cJSON_PrintPreallocated` never writes outside the buffer it is given; it succeeds exactly if the text and its zero byte fit, and the buffer then begins with them.", "quantifier": "For every document, every buffer of any size and content, both layouts and every spelling of numbers", "why_tests_cant": "Every prefix of every document is a place where the buffer can end; a test tries a few sizes, and the size that just fits is the one that is rarely tried.", "anchors": ["src/common/cJSON.c:cJSON_PrintPreallocated", "src/common/cJSON.c:ensure", "src/common/cJSON.c:print_value"]}
{"id": "C117", "title": "Minifying a JSON text keeps the document", "statement": "`cJSON_Minify` works in place and never touches memory outside the text and its zero byte. A JSON text, with white space and comments around it, becomes the text without white space outside its strings, which the parser reads as the same document.", "quantifier": "For every text up to its zero byte, every document of any size and depth in every spelling, every white space and every comment around it", "why_tests_cant": "The scanner is wrong only where a string ends in an escaped backslash; then it takes the rest of the document inside out. Tests of such functions use a few documents and rarely one with that string.", "anchors": ["src/common/cJSON.c:cJSON_Minify", "src/common/cJSON.c:minify_string", "src/common/cJSON.c:skip_oneline_comment", "src/common/cJSON.c:skip_multiline_comment"]}
{"id": "C118", "title": "A copy of a JSON item is complete, separate, and leaves nothing behind when it fails", "statement": "`cJSON_Duplicate` gives an item with the same name and value - strings as C strings, that is, up to their first zero byte - in blocks of its own, so that original and copy can be changed or deleted independently; without `recurse` arrays and objects become empty. If an allocation fails, the result is NULL and no block is left. No block is used that is not there.", "quantifier": "For every item of every document of any size and depth in memory, both values of `recurse`, and every pattern of failing allocations", "why_tests_cant": "Each of the unboundedly many allocations of a copy is a place where it can fail with a different half-built tree in memory; tests have allocations that succeed.", "anchors": ["src/common/cJSON.c:cJSON_Duplicate", "src/common/cJSON.c:cJSON_strdup", "src/common/cJSON.c:cJSON_New_Item", "src/common/cJSON.c:cJSON_Delete"]}
{"id": "C119", "title": "Comparing two JSON documents says whether they are the same", "statement": "`cJSON_Compare` says yes exactly if the two documents are the same: arrays element by element, objects by name in any order, names with or without regard to case as asked, strings as C strings, numbers up to the last bit. The answer does not depend on the order of the two, and a document is the same as its copy; the work grows in proportion to the documents.", "quantifier": "For all pairs of documents of any size, depth and order of members, with and without regard to case", "why_tests_cant": "Equality of trees with unordered members is a statement about all pairs and all orders; the cases that go wrong (a name twice, an infinite number, deep objects) are not among the examples one thinks of.", "anchors": ["src/common/cJSON.c:cJSON_Compare", "src/common/cJSON.c:get_object_item", "src/common/cJSON.c:compare_double", "src/common/cJSON.c:case_insensitive_strcmp"]}
{"id": "C120", "title": "Editing an array keeps its list of children in order", "statement": "Adding, inserting, detaching and replacing items leaves the children of an array or object exactly as the same operation would leave a list: in the right order, each pointing to the next and to the one before, the first one back to the last, so that appending still finds the end. The detached item points nowhere and can be put in again; a replaced item is freed with everything it owns, and nothing else is. Nothing but links is written. This holds for any series of edits in which only items are put in that are in no list; an item that still is in another list drags the rest of that list along.", "quantifier": "For all lists of children of any length, all places in them and all series of edits of any length", "why_tests_cant": "Each edit has a case for the first, the middle, the last and the only item, and the pointer back to the last item is only used by a later edit; a wrong link shows up after a particular series of edits, of which there are unboundedly many.", "anchors": ["src/common/cJSON.c:add_item_to_array", "src/common/cJSON.c:cJSON_DetachItemViaPointer", "src/common/cJSON.c:cJSON_DetachItemFromArray", "src/common/cJSON.c:cJSON_InsertItemInArray", "src/common/cJSON.c:cJSON_ReplaceItemViaPointer"]}
{"id": "C121", "title": "Members of a JSON object are added, taken out and replaced by name", "statement": "Adding an item under a name makes it the last member with a copy of that name; its old name is freed, its value and everything else stay, and the name given may be the item's own old name. If there is no memory for the name, nothing has changed. Taking out by name hands over the first member with that name, and only that one. Replacing puts the new item, with the name, in the place of the first member with that name and frees what the old member owned; also here the name given may be the item's own.", "quantifier": "For all objects with any number of members, all names, all items to be put in, and all courses of the allocations", "why_tests_cant": "Whether a name is freed before it is read depends on two pointers being the same, a case a test has to think of; in a test that does not look at memory it goes unnoticed.", "anchors": ["src/common/cJSON.c:add_item_to_object", "src/common/cJSON.c:cJSON_DetachItemFromObject", "src/common/cJSON.c:replace_item_in_object", "src/common/cJSON.c:get_object_item", "src/common/cJSON.c:cJSON_strdup"]}
{"id": "C122", "title": "In a JSON document that was read or copied all lists are linked both ways", "statement": "When reading a text or copying a document succeeds, the children of every array and object of the result form a list linked in both directions, the first one pointing back to the last, and all of them belong to the result. So the functions that edit a document, which find the end of a list through its first item, work on documents that were read or copied: a new item added to a document just read comes behind all the children that were read.", "quantifier": "For all texts, all documents in memory, and all courses of the allocations", "why_tests_cant": "The pointers to the previous item are not used for reading, printing, copying or deleting a document; a wrong one in some place of the nesting goes unnoticed until a particular edit.", "anchors": ["src/common/cJSON.c:parse_array", "src/common/cJSON.c:parse_object", "src/common/cJSON.c:cJSON_Duplicate", "src/common/cJSON.c:add_item_to_array"]}
{"id": "C123", "title": "Created JSON values are complete or nothing is left of them", "statement": "Creating a value, an array of numbers or strings, or a new member of an object gives exactly the values asked for, in their order, in memory of its own, with the elements of an array linked both ways; a new member comes behind the others and has a copy of the name given. If any allocation on the way fails, the answer is NULL, and all that was allocated on the way has been given back: memory is as it was before.", "quantifier": "For all values, all arrays of any length, all objects, and all courses of the allocations", "why_tests_cant": "Memory runs out at any of unboundedly many places, and each time other half-built parts have to be given back.", "anchors": ["src/common/cJSON.c:cJSON_CreateNumber", "src/common/cJSON.c:cJSON_CreateString", "src/common/cJSON.c:cJSON_CreateIntArray", "src/common/cJSON.c:cJSON_CreateStringArray", "src/common/cJSON.c:cJSON_AddNullToObject", "src/common/cJSON.c:cJSON_AddStringToObject"]}
{"id": "C124", "title": "Changing the string of a JSON item gives it that string", "statement": "Setting the value of a string item makes its value the string given, whether longer or shorter than the old one and wherever it comes from; no memory is lost, nothing else changes. If there is no memory for a longer string, the answer is NULL and the item keeps its value. Items that are no strings are refused.", "quantifier": "For all items, all strings and all courses of the allocations", "why_tests_cant": "Whether the string given overlaps the old one is a question of pointers, and copying a string onto itself mostly works.", "anchors": ["src/common/cJSON.c:cJSON_SetValuestring"]}
{"id": "C125", "title": "References and constant names in a JSON document: nothing that is only referred to is freed, nothing that is owned is lost", "statement": "Deleting a document that holds references and constant names gives back exactly the blocks it owns, each once: every item, its name unless that is a constant, its value and children unless the item is a reference. A reference shows the value of the item it refers to. Adding a reference to an array or object puts it at the end of the list; deleting the array leaves the item with all that is in it. If there is no memory, nothing has changed and nothing is left behind. A constant name is the caller's string itself, and a name the item owned before is given back.", "quantifier": "For all documents with any mix of references, constant and owned names, and all courses of the allocations", "why_tests_cant": "Who owns a block shows in no result; a block freed twice or lost is seen only by what happens later.", "anchors": ["src/common/cJSON.c:cJSON_Delete", "src/common/cJSON.c:create_reference", "src/common/cJSON.c:cJSON_AddItemReferenceToArray", "src/common/cJSON.c:cJSON_AddItemReferenceToObject", "src/common/cJSON.c:cJSON_AddItemToObjectCS"]}
