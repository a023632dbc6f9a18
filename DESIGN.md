# Formal model of lk_socks5 — design

Source: `/repo` (hitanxxx/lk_socks5, pinned), C. It was read as text only and never built or run.
The model and the proofs are in Lean 4.33.0 with Mathlib; `cd lean && lake build` checks everything.

## 1. Layout

* `lean/Verif/Model/*.lean` — the model: small total functions, one file per source file or component. Every definition cites the file and lines it models, and says where it simplifies.
* `lean/Verif/Spec/*.lean` — specifications that do not use the functions of the model: encoders, readers, relations, abstract data types. Some of them use data types of the model.
* `lean/Verif/Proofs/*.lean` — helper lemmas.
* `lean/Verif/Props/*.lean` — the theorems claimed in `MANIFEST.json`, with examples that meet their hypotheses.
* `properties.jsonl` — the properties in English; `MANIFEST.json` — which theorems prove them.
* `seeded/LOG.jsonl` — wrong programs tried against the theorems (section 7).

## 2. Conventions of the model

* Bytes are `UInt8`; buffers are lists of bytes, with cursors where the code's cursors matter.
* Undefined behaviour (access out of bounds, NULL dereference, use after free, double free), `abort`, endless loops and stack overflow are distinct outcomes of the model. They are never assumed away; safety theorems say that they do not occur.
* The operating system, OpenSSL, the clock and the C library's `strtod` are parameters: every call takes the next element of an arbitrary list of results, or the result of an arbitrary function. Theorems quantify over all of them.
* Events come as arbitrary schedules; handlers that the model does not fix are arbitrary scripts of actions.
* C integers are unbounded unless a property depends on their width, where it is modelled (`UInt8`, `UInt32`, `% 65536`, conversion of `long` to `int`).
* Target: little-endian, 64-bit Linux, epoll build (C96 is about the build with `select`), `MEM_BY_SYSCALL` undefined.

## 3. How properties that the code violates are treated

The property keeps its full statement in `properties.jsonl`. A theorem `…_counterexample` proves that the model violates it, for a whole class of inputs where possible. A theorem `…_partial` proves the strongest part found to hold, often as an exact characterisation. The manifest's status is `partial` in these cases; what is missing is said in the theorem's comment and in the table below. The model follows the code, faults included; no property was changed to suit the code.

## 4. Trusted base

* The Lean 4.33.0 kernel. No `sorry`, `admit`, `native_decide`, `bv_decide`, and no axioms besides Lean's own three: `propext`, `Classical.choice`, `Quot.sound`. The appendix lists which theorem uses which.
* The reading of the C source. No tool connects the C text to the model; the citations in the comments are there to check it by eye.
* The English statements in `properties.jsonl` match the theorems; the specifications in `Verif/Spec` and the hypotheses of the theorems are meant to be read for that.
* Assumptions about the environment, stated in the model files: `malloc` returns disjoint areas; a socket that has failed keeps failing; edge-triggered epoll reports a descriptor again after it would have blocked; `connect`, `accept`, `send`, `recv`, `read`, `fork` and OpenSSL return any of their documented results; single-threaded workers (the code starts no threads).

## 5. What is modelled and what is not

| source | modelled | in | not modelled |
|---|---|---|---|
| `main.c` | command line, PID file, stop and reload, daemonising, order of initialisation | `Control`, `Start` | |
| `common/process.c` | master loop, signals, workers, restart; worker loop; process table | `Process`, `Spawn`, `Loop`, `Reload`, `Ident`, `Signals`, `Stop` | |
| `common/event.c` | registration, dispatch of a batch, alloc and free; registration and scan of `select`; `ev_exit` | `Event`, `Select`, `Exit` | — |
| `common/timer.c`, `util/bheap.c` | all | `Timer`, `BHeap` | |
| `common/sys_time.c` | clock texts | `SysTime` | `localtime` is a parameter |
| `common/mem.c` | all of the pool | `Mem`, `Worker` | locking except whether the lock stays held; `MEM_BY_SYSCALL` build |
| `common/meta.c` | all | `Meta`, `Worker` | |
| `common/net.c` | accept, connect, alloc, free, peek | `Accept`, `Conns`, `Session`, `Peek`, `Upstream`, `TlsClose` | socket options are results |
| `common/net_send.c` | all of TCP, UDP receive and send results | `NetSend`, `Recv` | |
| `common/ssl.c` | read, write, handshake, shutdown, error queue; contexts and certificates | `Ssl`, `TlsRelay`, `TlsServe`, `TlsClient`, `TlsClose`, `TlsSetup` | cryptography |
| `common/log.c` | all | `Log` | |
| `common/config.c`, `listen.c` | all | `Config` | |
| `common/cJSON.c` | parser with its allocations, accessors used, deleting; printing, minifying, copying, comparing, editing, creating, references | `CJson`, `CJsonMem`, `CJsonPrint`, `CJsonMinify`, `CJsonDup`, `CJsonCompare`, `CJsonEdit`, `CJsonNamed`, `CJsonCreate`, `CJsonRef`, `Config` | raw text, copying with regard to constant names; the program uses none of these (nor printing, minifying, copying, comparing, editing, creating and references) |
| `common/aho_corasick.c` | all | `Aho`, `AhoFree` | |
| `common/ringbuffer.c` | all | `Ring` | |
| `common/sys_string.c`, `util/*` | all | `Str`, `Queue`, `EzHash`, `Bst`, `Seq` | |
| `common/modules.c` | all | `Start`, `Exit` | — |
| `common/shm.c` | all | `Ident` | |
| `common/sys_cipher.c` | all | `Cipher` | used nowhere; the algorithms of the library are arguments |
| `dns/dns.c` | question, answer, cache, life cycle | `Dns`, `Session`, `Hold` | |
| `http/http_req.c` | all | `HttpReq`, `HttpBody` | |
| `app/webser.c`, `web_api.c` | routing, files, responses, keep-alive, lifetimes | `Webser`, `WebRsp`, `WebLife`, `WebSend`, `WebConn`, `WebPlain`, `WebAccept`, `WebHold` | |
| `app/socks5.c` | all | `Socks5`, `Upstream`, `Session`, `Serve`, `Hold` | |
| `app/tls_tunnel_s.c`, `tls_tunnel_c.c` | all | `Auth`, `Tunnel`, `TlsRelay`, `TunnelC`, `Session`, `Serve`, `TlsServe`, `TlsClient`, `Path`, `Worker`, `Idle`, `Hold`, `Config` | |

Composition: each model covers one component. Where components meet, the theorems of one are used by another (`TunnelC` ends in `Tunnel`; `Config` uses `CJson` and `Aho`; `Timer` uses `BHeap`; `Conns` runs connections on `Mem` and `Timer`; `TlsRelay` runs the relay on the TLS layer of `Ssl`, `TlsServe` and `TlsClient` the phases before it on both hosts, `WebSend` the responses of `Webser`, `WebConn` a kept connection with the parser of `HttpReq`, the router and the responses, and `WebAccept` the same from `accept` on; `Path` joins client, network, server session and relay; `Worker` runs many relays of `Tunnel` on the memory of `Mem`; `Dns` uses `EzHash`; `Webser` uses `EzHash` and `Mem`). There is no single model of the whole program. `Tunnel`, `Serve`, `Path` and `Worker` take TLS calls as calls with results; what the TLS layer does to callbacks and interest besides is in `Ssl` and the models on top of it only.

## 6. Properties

For each property: status, model files, how it is proved, the theorems, and what is missing.

**C01 SOCKS5 CONNECT requests decode to the address the client encoded** — proved. Model: `Socks5`. The byte automaton of `s5_p2_req` over an arbitrary segmentation. Round trip with an independent encoder (`Spec/Socks5`): induction over the name, and a lemma that feeding segments equals feeding their concatenation.
Theorems: `c01_connect_decodes`, `c01_not_before`, `c01_port_bytes`. For every stream and segmentation; names of 1..254 bytes without NUL.

**C02 Unsupported SOCKS5 requests never open an upstream connection** — proved. Model: `Socks5`. Inversion of the automaton: if it accepts, the bytes read are an encoding of a supported request.
Theorems: `c02_accept_sound`, `c02_reject_version_command`, `c02_reject_address_type`, `c02_never_aborts`.

**C03 SOCKS5 method negotiation answers exactly once, after the whole greeting** — proved. Model: `Socks5`. Same automaton for `s5_p1_req`; the reply goes through `s5_p1_rsp` with arbitrary short writes.
Theorems: `c03_greeting`, `c03_not_before`, `c03_reply`.

**C04 The SOCKS5 parser never writes outside its request record** — partial. Model: `Socks5`. Stores are a distinct `oob` outcome of the model. The partial theorems say exactly which streams reach it; the counterexamples exhibit them (length byte 0; 255-byte names leave no terminator).
Theorems: `c04_request_store_partial`, `c04_greeting_store_partial`, `c04_name_read_partial`, `c04_name_255`, `c04_counterexample`, `c04_name_counterexample`. False of the code: zero length bytes and 255-byte names leave the arrays. The partial theorems characterise exactly which streams do.

**C05 The SOCKS5 success reply is sent only after the upstream connection is established and carries the bound address** — partial. Model: `Upstream`. `s5_cup_connect`, `s5_cup_connect_chk`, `s5_p2_rsp` on a little-endian host, results of connect and getsockopt arbitrary. The reply bytes are compared with RFC 1928 in `Spec/Socks5`.
Theorems: `c05_reply_only_when_connected_partial`, `c05_reply_when_connected`, `c05_reply_bytes_partial`, `c05_reply_right_iff_partial`, `c05_address_counterexample`, `c05_reply_delivery`. The timing half holds; the address half is false of the code (truncated and byte-swapped).

**C06 IPv4 destinations survive the text round trip** — proved. Model: `Upstream`. `snprintf("%d.%d.%d.%d")` followed by `inet_addr`, proved for all four bytes.
Theorems: `c06_text_round_trip`, `c06_text_fits`. Inet_addr is modelled for the four-component form.

**C07 The tunnel relays each direction in order without loss or duplication** — partial. Model: `Tunnel`, `TlsRelay`. The relay handlers as a state machine; receive and send results are arbitrary lists, events arbitrary schedules. Invariant: delivered ++ buffered ++ unread = what the source sent. The same with the callbacks and the interest of the TLS connection in the state (C102).
Theorems: `c07_relay_exact_partial`, `c07_relay_prefix_partial`, `c102_order_partial`, `c102_echo_counterexample`. All schedules, partial reads/writes, errors and timeouts, with and without the exchange of callbacks by the TLS layer. False of the code in one case: after the SOCKS5 reply (or the header) had to wait, uploaded bytes can be sent back to the client.

**C08 The tunnel never stalls with data it could move** — partial. Model: `Tunnel`, `TlsRelay`. Invariant `Waiting`: whenever data could move, the callback that moves it is installed and the edge-triggered event is still to come.
Theorems: `c08_armed_partial`, `c08_delivery_partial`, `c102_progress_partial`, `c102_no_stall_partial`, `c102_upload_starves_counterexample`, `c102_wakeup_lost_counterexample`. Holds for the relay handlers on results of their calls. With the TLS layer it holds while nothing waits to be written to the TLS connection; otherwise one direction can stand still although its data could move, even for ever.

**C09 When one side closes, everything it sent before is delivered first** — partial. Model: `Tunnel`, `TlsRelay`. Same invariant, at the step that closes.
Theorems: `c09_flush_before_close_partial`, `c102_flush_partial`, `c102_echo_counterexample`. All schedules, with and without the exchange of callbacks by the TLS layer; fails in the case of C07.

**C10 Closing one direction does not lose data of the other direction** — partial. Model: `Tunnel`. Counterexample parametric in the lost bytes; the partial theorem bounds the loss by one relay buffer.
Theorems: `c10_other_direction_counterexample`, `c10_loss_bounded_partial`. False of the code: up to one relay buffer of the other direction is discarded.

**C11 Only holders of a configured key are admitted** — partial. Model: `Aho`, `Auth`. The automaton of aho_corasick.c with its state that survives between look-ups. What is admitted is bounded by subsequence and infix relations for every history; three parametric counterexamples.
Theorems: `c11_subsequence_partial`, `c11_infix_partial`, `c11_history_counterexample`, `c11_fresh_counterexample`, `c11_high_bytes_counterexample`. False of the code in three ways; the partial theorems bound what can be admitted, for every history.

**C12 A client with a configured key is admitted** — partial. Model: `Aho`, `Auth`. Same model; holds after any history that leaves the state at the root.
Theorems: `c12_clean_history_partial`, `c12_history_counterexample`. False of the code after refused attempts; holds after any clean history.

**C13 Authorisation needs the whole header and the right magic** — proved. Model: `Auth`. `tls_tunnel_s_auth_chk` over arbitrary segmentation.
Theorems: `c13_needs_header`, `c13_wrong_magic`, `c13_incomplete`, `c13_ended`, `c13_segmentation`.

**C14 Key-file compilation never crashes** — partial. Model: `Aho`. Compilation of fail links by breadth-first search; NULL dereference is an outcome.
Theorems: `c14_terminates_partial`, `c14_single_key_partial`, `c14_fresh_heads_partial`, `c14_file_partial`, `c14_counterexample`. False of the code (NULL dereference); termination and stack bounds hold for every key file.

**C15 Pool allocations are disjoint, large enough and zeroed** — proved. Model: `Mem`. The pool as free and used objects of six classes with addresses and contents. Invariant over all histories of allocation, free and stores.
Theorems: `c15_fresh_block`, `c15_live_disjoint`, `c15_headers_apart`, `c15_aligned`, `c15_contents`. Malloc is assumed to return disjoint areas; the queues are sequences (C18).

**C16 Pool exhaustion is reported as failure, and only then** — partial. Model: `Mem`. Exact outcome of every allocation; counterexamples for classes other than the first.
Theorems: `c16_outcome_partial`, `c16_starved_counterexample`, `c16_corrupt_counterexample`, `c16_foreign_free_counterexample`. False of the code: only the smallest class is checked for emptiness.

**C17 Freed pool blocks become available again** — proved. Model: `Mem`. Conservation of objects over all histories.
Theorems: `c17_conserved`, `c17_reused`, `c17_double_free`.

**C18 The intrusive queue behaves like a sequence** — proved. Model: `Queue`. The pointer structure with arbitrary memory refines a list, for every sequence of operations.
Theorems: `c18_refines`, `c18_from_scratch`, `c18_observers`, `c18_neighbours`, `c18_remove_twice`.

**C19 Chained sends transmit the chain content in order** — proved. Model: `NetSend`. `send_chains` over arbitrary results of `send`, EINTR included.
Theorems: `c19_chain_order`, `c19_done_iff_all_sent`, `c19_single_call`, `c19_progress`, `c19_eintr_invisible`, `c19_receive`.

**C20 Buffer appends never overflow** — proved. Model: `Meta`. Cursor invariant over all sequences of operations.
Theorems: `c20_append`, `c20_run`, `c20_run_steps`, `c20_run_fails`, `c20_dump`. Lengths passed by callers are the lengths of the data.

**C21 A timer never fires early and fires at most once per arming** — proved. Model: `BHeap`, `Timer`. Every firing in a trace is matched with an arming that was not cancelled.
Theorems: `c21_sound`, `c21_times`. For at most 1536 timers, the size of the heap.

**C22 All due timers fire and the reported wait is the time to the next deadline** — partial. Model: `BHeap`, `Timer`. Holds for histories without cancellation of non-last elements (`Calm`); counterexample from the heap deletion fault.
Theorems: `c22_wait_partial`, `c22_all_due_partial`, `c22_late_counterexample`. False of the code after cancellations; holds when armed timers are not cancelled.

**C23 The heap always exposes a minimal key** — partial. Model: `BHeap`. Heap order under arbitrary adds and pops; exact condition under which `heap_del` keeps it.
Theorems: `c23_min_partial`, `c23_deletion_exact`, `c23_counterexample`. False of the code; exact characterisation of order-preserving deletions.

**C24 Heap operations add and remove exactly the given element** — proved. Model: `BHeap`. Contents as a set, for all operations.
Theorems: `c24_contents`, `c24_full`, `c24_frame`, `c24_refused`.

**C25 The hash table behaves like a first-write-wins map** — proved. Model: `EzHash`. Refines a first-write-wins map for every history; the hash function is arbitrary except in examples.
Theorems: `c25_lookup`, `c25_refines`, `c25_collisions`, `c25_delete`, `c25_no_abort`, `c25_empty_key_counterexample`. Histories that insert the empty key abort the program; allocation failures leave the map unchanged.

**C26 DNS questions encode the requested name** — proved. Model: `Dns`. Encoder of names against the reading of RFC 1035 in `Spec/Dns`.
Theorems: `c26_question`, `c26_no_overflow`, `c26_empty_label_counterexample`. For host names with labels of 1..63 bytes; other byte strings are not checked by the code.

**C27 DNS answers yield the first A record** — partial. Model: `Dns`. Walk over an arbitrary list of records encoded by the specification.
Theorems: `c27_first_a_partial`, `c27_empty_data_counterexample`, `c27_plain_owner_counterexample`, `c27_additional_section_counterexample`, `c27_counts`. Holds for records with non-empty data; false with an empty-data record before the A record.

**C28 DNS results come from the answer to our question** — partial. Model: `Dns`. What is guaranteed about any response buffer, and counterexamples.
Theorems: `c28_inside_partial`, `c28_identifier_ignored`, `c28_unrelated_response_counterexample`, `c28_stale_bytes_counterexample`, `c28_over_read_counterexample`, `c28_short`. False of the code; only the position of the address inside the response is guaranteed, for records of at least four data bytes.

**C29 Cached DNS entries are used only while their TTL lasts** — partial. Model: `Dns`, `EzHash`. Exact condition under which an entry is answered, over all histories; counterexamples.
Theorems: `c29_exact_partial`, `c29_stale_counterexample`, `c29_stale_forever_counterexample`, `c29_early_removal_counterexample`, `c29_wrap_counterexample`, `c29_ttl_partial`. False of the code; exact characterisation of when an entry is answered.

**C30 A cached address is the one resolved for exactly that name** — proved. Model: `Dns`, `EzHash`. From C25, for all histories.
Theorems: `c30_right_name`, `c30_empty_name_abort_counterexample`.

**C31 HTTP requests arriving in one piece are split exactly** — partial. Model: `HttpReq`. Parser against an encoder of request heads (`Spec/HttpReq`).
Theorems: `c31_one_piece_partial`, `c31_empty_value_counterexample`, `c31_sixteen_fields_counterexample`. Holds for origin-form heads of at most fifteen fields with non-empty values that fit the buffer and arrive in one piece; false for empty values and for a sixteenth field.

**C32 HTTP request handling does not depend on segmentation** — partial. Model: `HttpReq`. Same with arbitrary segmentation; endless loops are an outcome, shown for every cut inside the line or fields; which cuts of a valid head are understood is characterised exactly.
Theorems: `c32_line_boundary_partial`, `c32_payload_partial`, `c32_rest_never_read_counterexample`, `c32_hang_counterexample`, `c32_hang_header_counterexample`, `c32_incomplete_accepted_counterexample`, `c32_full_line_abort_counterexample`, `c32_cut_counterexample`, `c32_cut_iff`. False of the code: a cut inside the request line or the fields makes the parser spin or accept an incomplete head. Holds for a cut between request line and fields, and for the payload. For a valid head of at most 4096 bytes in two pieces this is exact: it is understood if and only if the cut is right behind the request line.

**C33 The web server never serves files outside its root** — partial. Model: `Webser`. Path construction and refusal for all targets; the parent-component rule is in `Spec/Web`.
Theorems: `c33_refused_partial`, `c33_served`, `c33_path`, `c33_root_prefix`, `c33_long_target_counterexample`, `c33_trailing_counterexample`. Refusal holds for targets below 1024 bytes with a non-final parent component; longer targets escape the root, a final parent component passes.

**C34 Static files are sent completely and in order** — partial. Model: `Webser`. The read/send loop with arbitrary short reads and writes.
Theorems: `c34_prefix`, `c34_complete_partial`, `c34_whole_writes_partial`, `c34_at_most_one_buffer_partial`, `c34_short_write_counterexample`, `c34_large_file_counterexample`, `c34_open_failure_counterexample`. Never wrong bytes; complete when the socket takes whole writes; a short write of the last chunk ends the response early. Assumes that a wait is followed by a further call, which on connections without TLS is not the case (C103).

**C35 Content types follow the extension table** — partial. Model: `Webser`, `EzHash`. The table built at start-up, look-up for every path.
Theorems: `c35_type_partial`, `c35_no_dot_counterexample`. Holds for every path containing a dot; a path without any dot crashes.

**C36 API requests are dispatched on exact path and method** — partial. Model: `Webser`, `EzHash`. Registration and dispatch for all keys, paths and methods.
Theorems: `c36_exact`, `c36_iff`, `c36_long_path_counterexample`, `c36_method_prefix_counterexample`, `c36_method_iff`. Exact for registered paths of at most 31 bytes; methods are matched by prefix.

**C37 Freed connections are never dispatched** — proved. Model: `Event`. Batch of events with an arbitrary handler script (frees, allocations, interest changes).
Theorems: `c37_not_dispatched`, `c37_table_bound`. For every bookkeeping state and every batch.

**C38 Every reported readiness event reaches its handler** — partial. Model: `Event`. Same; stale indices characterised.
Theorems: `c38_delivered_partial`, `c38_lost_counterexample`, `c38_wrong_handler_counterexample`, `c38_error_only_counterexample`. False of the code: stale entry indices; holds when no unreported live event has an index in the range of the batch.

**C39 The kernel interest set follows the requested interest** — proved. Model: `Event`. epoll_ctl calls against the kernel’s set; also the select variant.
Theorems: `c39_step`, `c39_interest`, `c39_select`. Epoll and select variants.

**C40 TLS I/O restores the connection's callbacks** — partial. Model: `Ssl`. The callback swapping of ssl.c for arbitrary OpenSSL results.
Theorems: `c40_restored_partial`, `c40_restored_one_partial`, `c40_wakeup_partial`, `c40_new_interest`, `c40_handshake`, `c40_handshake_next_partial`, `c40_stale_write_callback_counterexample`, `c40_stale_read_callback_counterexample`, `c40_stale_interest_counterexample`, `c40_null_call_counterexample`, `c40_endless_counterexample`, `c40_handshake_loop_counterexample`, `c40_handshake_interest_counterexample`. False of the code in seven ways; holds for applications that install both callbacks and do not change them while an operation waits.

**C41 The supervisor keeps the configured number of workers** — partial. Model: `Process`. Master loop with arbitrary signals, exits and fork results.
Theorems: `c41_table`, `c41_replaced_partial`, `c41_no_start`, `c41_stop_iff`, `c41_signalled_partial`, `c41_shutdown_stuck_counterexample`, `c41_fork_failed_counterexample`. Table invariant for all histories; replacement when forking succeeds. False of the code: an exited first worker blocks shutdown, a failed fork is not retried.

**C42 The ring buffer is a FIFO** — partial. Model: `Ring`. Refinement to a list with the three wrong cases characterised exactly.
Theorems: `c42_step_partial`, `c42_run_partial`, `c42_history_partial`, `c42_unsafe`, `c42_second_round_counterexample`, `c42_invented_counterexample`, `c42_pull_counterexample`. FIFO for every history without the three wrong cases, which c42_unsafe characterises exactly.

**C43 The search tree behaves like a finite map** — partial. Model: `Bst`. Refinement to a bag, crash and stack overflow are outcomes.
Theorems: `c43_refines_partial`, `c43_insert_find_partial`, `c43_delete_iff`, `c43_last_counterexample`, `c43_minus_one_counterexample`, `c43_stale_counterexample`, `c43_stack_counterexample`. Correct as a bag as long as no call fails; insertion and lookup of up to 8192 numbers never fail. False of the code: deleting a leaf crashes and three more faults.

**C44 Log lines stay inside their buffer** — partial. Model: `Log`. Exact condition for staying in the buffer.
Theorems: `c44_exact_partial`, `c44_inside_iff`, `c44_long_line_counterexample`, `c44_long_prefix_counterexample`, `c44_nul_counterexample`. False of the code for long lines; c44_inside_iff is the exact condition.

**C45 Substring search finds exactly the occurrences inside the text** — partial. Model: `Str`. First occurrence, for all texts; counterexamples.
Theorems: `c45_first_partial`, `c45_abort_counterexample`, `c45_beyond_counterexample`, `c45_read_counterexample`. False of the code in three ways.

**C46 A TLS client hello is told apart from the secret protocol** — partial. Model: `Peek`. All first bytes.
Theorems: `c46_decision`, `c46_keeps`, `c46_secret_counterexample`. Decision and non-consumption hold; the secret header itself is taken for TLS.

**C47 Session resources are released exactly once** — partial. Model: `Session`. Objects, descriptors, timers and pending look-ups of a session with every order of events; use after free, double free and leak are outcomes.
Theorems: `c47_no_fault_partial`, `c47_released_partial`, `c47_closed_once_partial`, `c47_failure`, `c47_goes_on`, `c47_waits`, `c47_early_data`, `c47_relay`, `c47_faults`, `c47_dns_reset_counterexample`, `c47_dns_setup_counterexample`, `c47_dns_leak_counterexample`, `c47_handshake_timeout_counterexample`, `c47_double_close_counterexample`. All schedules and all results of system calls, server and client, except three situations in which the code is shown to fail.

**C48 The client tunnel preserves early data** — partial. Model: `TunnelC`, `Tunnel`. Client until the relay, then C07.
Theorems: `c48_order_partial`, `c48_delivery_partial`, `c48_bounded`, `c48_full`, `c48_half_close_counterexample`. Order, completeness once relaying and the cache bound hold for all schedules, except for what the TLS layer adds (C102); a half-closing local program loses its cached data.

**C49 JSON string literals decode to UTF-8** — proved. Model: `CJson`. Literals against the reading of RFC 8259 in `Spec/CJson`.
Theorems: `c49_decode`, `c49_lone_low`, `c49_lone_high`, `c49_bad_hex_counterexample`. All literals and all code points. The last theorem records that escapes with bad digits, which the property does not mention, are read as the character 0.

**C50 JSON parsing stays inside its input** — partial. Model: `CJson`. Every read is bounds checked in the model.
Theorems: `c50_inside`, `c50_inside_partial`, `c50_depth`, `c50_trailing_comma_counterexample`. Holds for C strings, the only use in the program, and for buffers with a length unless they end with a comma.

**C51 Growable sequences keep insertion order** — proved. Model: `Seq`. arr.c and list.c against lists.
Theorems: `c51_arr`, `c51_list`, `c51_free_arr`. All insertion sequences.

**C52 Bytes sent right after the authorisation header are not lost** — partial. Model: `Auth`, `Recv`. Exactly the bytes after the header that are lost; a parametric counterexample.
Theorems: `c52_suffix_partial`, `c52_aligned_partial`, `c52_pipelined_counterexample`. False of the code: coalesced bytes are discarded with the header.

**C53 No request can end a web worker** — partial. Model: `Webser`, `HttpReq`. Crashes are outcomes; sufficient condition and four classes of requests that crash.
Theorems: `c53_safe_partial`, `c53_short_request_counterexample`, `c53_echo_counterexample`, `c53_no_dot_counterexample`, `c53_overflow_counterexample`. False of the code; safe for parsed targets that fit the buffers when the path contains a dot.

**C54 Every response has a well-formed status line** — partial. Model: `Webser`. All status codes used by the program.
Theorems: `c54_crlf_partial`, `c54_missing_file_counterexample`. False for code 400.

**C55 The shared port serves tunnel clients and web clients** — partial. Model: `Peek`, `Webser`, `WebAccept`. The shared port; loss shown for every request, and on top of the TLS layer in C108.
Theorems: `c55_tunnel_partial`, `c55_request_lost_counterexample`, `c55_short_request_counterexample`, `c108_tunnel_partial`, `c108_first_request_counterexample`. Holds for tunnel clients; requests of web clients are lost.

**C56 Keep-alive connections use bounded memory and keep pipelined requests** — partial. Model: `Webser`, `Mem`. Count of buffers per request; exhaustion after finitely many.
Theorems: `c56_leak_counterexample`, `c56_pipelined_lost_counterexample`, `c56_exhaustion_counterexample`. False of the code: one buffer is lost per request.

**C57 Request bodies up to the documented limit are accepted** — partial. Model: `Webser`, `Mem`. Exact limit.
Theorems: `c57_exact_partial`, `c57_limit_counterexample`. False of the code: the limit is 16344 bytes.

**C58 A TLS failure on one connection does not stop the worker** — partial. Model: `Ssl`. `ssl_clear_error` does not end iff the queue is non-empty.
Theorems: `c58_no_hang_partial`, `c58_hang_counterexample`. False of the code after a failed certificate load.

**C59 A reload request reaches every worker** — partial. Model: `Process`. Signal broadcast.
Theorems: `c59_reload_partial`, `c59_late_counterexample`, `c59_dead_worker_counterexample`. Holds with all workers running and the signal arriving during the wait.

**C60 Log lines carry the level of the message** — partial. Model: `Log`. Names of levels.
Theorems: `c60_error_partial`, `c60_swapped_counterexample`. Holds for errors; info and debug are swapped in the code.

**C61 Freeing the search tree releases every node** — partial. Model: `Bst`. Count of freed nodes.
Theorems: `c61_freed_partial`, `c61_leak_counterexample`. Exact count of freed nodes; numbers up to -1 are never freed.

**C62 Decoding a JSON string stays within its allocation** — proved. Model: `CJson`. Decoded length against allocated length for every literal.
Theorems: `c62_string_memory`. Every position of every buffer.

**C63 Every JSON document is read as written** — partial. Model: `CJson`. Whole grammar of RFC 8259 (`Spec/CJson`) by induction over documents; `strtod` is a parameter.
Theorems: `c63_document_partial`, `c63_long_number_counterexample`, `c63_bom_partial`, `c63_bom_short_counterexample`. All documents whose numbers have at most 63 characters; longer numbers are cut by the code. A byte order mark is skipped in C strings, the only use in the program; in a buffer with a length it is not if one byte follows.

**C64 Absolute request lines are split exactly** — partial. Model: `HttpReq`. Absolute form against an encoder.
Theorems: `c64_absolute_partial`, `c64_ipv6_counterexample`. All lines whose host has no colon, slash or space; literal IPv6 hosts are split wrongly.

**C65 Only text is accepted in a request head** — proved. Model: `HttpReq`. Inversion for all streams.
Theorems: `c65_text_only`. All streams and segmentations.

**C66 The announced length decides the body** — partial. Model: `HttpBody`. `strtol` and prefix matching modelled; exact result, four classes of counterexamples.
Theorems: `c66_announced_partial`, `c66_white_space`, `c66_absent`, `c66_limit`, `c66_negative`, `c66_wrap_counterexample`, `c66_abbreviated_counterexample`, `c66_garbage_counterexample`, `c66_pipelined_counterexample`. False of the code in four ways, each shown for a whole class of requests.

**C67 Keep-alive is honoured exactly when requested** — partial. Model: `HttpBody`. Exact condition.
Theorems: `c67_iff`, `c67_keep_alive_partial`, `c67_abbreviated_counterexample`. C67_iff is the exact condition; abbreviations also count in the code.

**C68 Messages are filtered by level and written to their file** — proved. Model: `Log`. Exact output for every level and file state.
Theorems: `c68_routed`. All levels, kinds and file states.

**C69 The configuration in force is the one in the file** — partial. Model: `Config`, `CJson`. From JSON text (C63) to the configuration, all settings.
Theorems: `c69_partial`, `c69_type_counterexample`, `c69_ports_counterexample`, `c69_wrap_counterexample`, `c69_string_counterexample`, `c69_cut_counterexample`, `c69_rest_partial`. All JSON documents whose settings fit into the fields; the other five cases are shown to fail.

**C70 An unusable configuration stops the program** — partial. Model: `Config`. File reading with arbitrary splits.
Theorems: `c70_reads_partial`, `c70_ignored_counterexample`, `c70_grown_counterexample`, `c70_cut_counterexample`. Independence from the split of reads holds; unusable files are ignored by the code, among them every configuration that stops before its end.

**C71 Every configured port is served** — partial. Model: `Config`. Listen table of eight entries.
Theorems: `c71_served_partial`, `c71_all_or_nothing_partial`, `c71_counterexample`. Up to eight ports; further ones are ignored by the code. Binding is a parameter.

**C72 The keys in force are the keys in the file** — partial. Model: `Config`, `CJson`, `Auth`. Key file to matcher to admission.
Theorems: `c72_partial`, `c72_admitted_partial`, `c72_type_counterexample`, `c72_long_counterexample`, `c72_exact_partial`. Exact: the keys of the file if its one read returns the whole array, which must end within 4096 bytes; otherwise none at all.

**C73 A client reads the response the server meant** — partial. Model: `WebRsp`, `Printf`. Response bytes read back by an independent HTTP client (`Spec/Response`).
Theorems: `c73_file_partial`, `c73_never_truncated_partial`, `c73_api`, `c73_echo`, `c73_buffers`, `c73_large_counterexample`. Files of less than two gigabytes, read by a separate HTTP client; larger ones are announced with a negative length. Responses that never have to wait on connections without TLS (C103).

**C74 The status tells what happened to the file** — partial. Model: `WebRsp`, `Webser`. All file states.
Theorems: `c74_status_partial`, `c74_missing_counterexample`, `c74_open_counterexample`. The exact status in every case; a missing file gets 400 and a file that cannot be opened 200.

**C75 The Date header is the current date** — proved. Model: `SysTime`, `Printf`. Independent reader of HTTP dates (`Spec/Date`).
Theorems: `c75_http_date`. All clocks of years up to 9999, read back by a separate reader of HTTP dates.

**C76 Log lines carry the local time** — partial. Model: `SysTime`, `Printf`. Same for log stamps.
Theorems: `c76_log_time_partial`, `c76_year_counterexample`. Years 2000 to 2999; other years are shown as one of these.

**C77 Timers last as long as they should** — partial. Model: `Loop`, `Timer`. The worker loop with an arbitrary clock and arbitrary sleeping; `Spec/Clock` says what an even clock is.
Theorems: `c77_on_time_partial`, `c77_turn_possible`, `c77_forward_counterexample`, `c77_back_counterexample`, `c77_asleep_counterexample`, `c77_clock`. A clock that runs evenly, and calm histories as in C22; with a clock that is set, timers fire early, late or not at all.

**C78 Stop and reload reach the running program** — partial. Model: `Control`. Command line, PID file and signals over all histories of instances.
Theorems: `c78_words`, `c78_reaches_partial`, `c78_short_write`, `c78_no_pid`, `c78_reload_counterexample`, `c78_second_counterexample`, `c78_stale_counterexample`. Exact words and round trip of the pid for all pids; after a reload, a second start or a kill the commands no longer reach the program.

**C79 Idle tunnels are closed, busy ones are not** — partial. Model: `Idle`, `Tunnel`. The relay of C07 with the deadlines of both connections.
Theorems: `c79_idle_closed`, `c79_active_partial`, `c79_slow_counterexample`. Idle sessions are always closed; sessions that read something at least every ten seconds are not; a session whose destination drains slowly is closed although bytes move.

**C80 Every new connection gets its handler** — partial. Model: `Accept`. Queue of arrivals and edge-triggered reports; every result of accept, allocation and socket options is arbitrary.
Theorems: `c80_once`, `c80_taken_partial`, `c80_refused_counterexample`, `c80_behind_counterexample`, `c80_next_partial`. Exactly-once in all cases; all are handed over in order as long as no call fails; after a failure the rest waits for the next arrival.

**C81 The selected SOCKS5 method was offered** — partial. Model: `Serve`, `Socks5`. The whole session up to the answer; `MethodOk` states what RFC 1928 asks for.
Theorems: `c81_offered_partial`, `c81_not_offered_counterexample`. Greetings that offer method 0; all others are answered with method 0 as well.

**C82 A SOCKS5 session works whatever the segmentation** — partial. Model: `Serve`, `Socks5`. Header, greeting, request, connect, reply and relay over records; a client that waits for answers is a separate script.
Theorems: `c82_waiting_client_partial`, `c82_no_deadlock_partial`, `c82_greeting_counterexample`, `c82_request_counterexample`. Clients that wait for each answer, all segmentations and interleavings; bytes sent ahead are discarded.

**C83 The client is told whether its request was served** — partial. Model: `Serve`, `Socks5`. Same session; `ToldWhy` states what RFC 1928 asks for.
Theorems: `c83_no_false_success_partial`, `c83_command_counterexample`, `c83_refused_counterexample`. Success is never reported falsely; failures are not reported at all.

**C84 Web connections give back what they took** — partial. Model: `WebLife`. Ownership of the blocks and the file of a web connection, each allocation failing or not; counts of what is taken and given back.
Theorems: `c84_no_fault_partial`, `c84_balance_partial`, `c84_lost_partial`, `c84_expires`, `c84_header_counterexample`, `c84_header_waits`, `c84_keepalive_counterexample`, `c84_body_counterexample`. With and without TLS, in secret mode or not. No fault unless one of three allocations fails; exact number of blocks lost.

**C85 Clients have time to send their first bytes** — partial. Model: `Accept`. The timer set at accept against arbitrary times of data and expiry passes.
Theorems: `c85_quick_partial`, `c85_slow_counterexample`. The time allowed is five milliseconds; slower clients are closed.

**C86 Nothing happens for peers that are not admitted** — partial. Model: `Serve`, `TlsRelay`. Invariant over all histories with an arbitrary `admit`; the gap is a run of the relay on the TLS layer.
Theorems: `c86_nothing_before_admission`, `c86_contiguous_partial`, `c86_gap_counterexample`. All histories, for an arbitrary set of admitted headers, without what the TLS layer does to callbacks; with it, after a reply that had to wait, a part of the stream can be sent back to the client and is missing upstream.

**C87 Timers belong to connections that exist** — proved. Model: `Conns`, `Mem`, `Timer`. The pool, the timers and the table of connections in one state; the log of events is checked by `World.Good`, which knows live and armed connections only.
Theorems: `c87_histories`, `c87_no_crash`, `c87_stop_seen`, `c87_open`, `c87_pass`. All histories; this also discharges the bound on the number of timers assumed in C21 and C22.

**C88 A failed start is reported and leaves no PID file** — partial. Model: `Start`. `main` with an arbitrary result of every call.
Theorems: `c88_pid_partial`, `c88_runs_partial`, `c88_status_counterexample`, `c88_file_counterexample`. The PID file always names the process that runs; a daemon that fails is reported as started and a failed write leaves a broken PID file.

**C89 A running worker has everything it needs** — partial. Model: `Start`, `Auth`, `Aho`. Initialisation of a worker with an arbitrary result of every call, then one request.
Theorems: `c89_web_partial`, `c89_no_keys_partial`, `c89_keyfile_counterexample`, `c89_memory_counterexample`, `c89_epoll_counterexample`. Exact condition for serving; a worker that lacks something runs on and crashes or ignores requests.

**C90 Stopping frees each node of the key matcher once** — proved. Model: `AhoFree`, `Aho`, `Config`, `CJson`. The explicit stack of `ezac_free`; the freed nodes are compared with the prefixes of the keys.
Theorems: `c90_freed_once`, `c90_keys`. All contents of the key file and all results of reading it.

**C91 The two hosts together are a transparent path** — partial. Model: `Path`, `Serve`, `Socks5`, `Auth; TlsClient`, `TlsServe`, `TlsRelay`. Client, records, server session and relay in one state. The invariant says where each byte of the header, the greeting, the request and the data is. A count of the work left shows that it ends. `Props/TlsPath.lean` joins the theorems about the two hosts with TLS (C102, C104, C105).
Theorems: `c91_up_partial`, `c91_down_partial`, `c91_everything_partial`, `c91_ends_partial`, `c91_no_dead_end_partial`, `c91_key`, `c91_tls_partial`. Order and destination also with what the TLS layer does to callbacks and interest, unless the header or the reply has to wait; that everything arrives only without it, since with it a direction can stand still (C102). Destinations are IPv4 addresses and names of 1 to 254 bytes without NUL; keys of 1 to 16 bytes, on a matcher in its initial node; TLS is trusted to carry records in order.

**C92 A reload puts the files as they are now in force** — partial. Model: `Reload`, `Process`. The supervisor of C41 with the contents of the two files at every round, and what each worker read.
Theorems: `c92_keys_partial`, `c92_config_counterexample`. The keys of the file are in force in every worker after a reload in which the workers exit and can be started; the configuration is read once, so an edited one never comes into force.

**C93 Every process has its entry and knows what it is** — partial. Model: `Ident`. The 32-bit size of the table, whole pages, the numbering loop; which processes a worker starts after its loop.
Theorems: `c93_table`, `c93_large_counterexample`, `c93_ends_partial`, `c93_starts`, `c93_worker_255_counterexample`, `c93_restart_255_counterexample`. Up to 178956970 entries; workers end properly with up to 255 of them; the number of worker 255 is the mark of the master.

**C94 A signal never finds the process without its state** — partial. Model: `Signals`. The life of a process as steps with arbitrary signals before each; the context is NULL, live or freed.
Theorems: `c94_single_partial`, `c94_worker_partial`, `c94_master_partial`, `c94_early_counterexample`, `c94_late_counterexample`, `c94_before_counterexample`. All signals at all points except before the context is allocated and after it is freed, where they crash the process.

**C95 A stop request ends the worker soon** — partial. Model: `Stop`, `Loop`, `Timer`. The worker loop of C77 with a request at an arbitrary time.
Theorems: `c95_in_time_partial`, `c95_noticed_partial`, `c95_race_counterexample`, `c95_asleep_counterexample`. Bounds for every moment of the request; between the look at the flag and the wait a request is noticed after the wait only.

**C96 The select build reports every ready connection** — partial. Model: `Select`, `Event`. The scan of `ev_select_loop` over the queue, with the two sets; the rest of a turn is the dispatch of `Event`, to which the state is projected.
Theorems: `c96_dispatch_partial`, `c96_found_partial`, `c96_dead_counterexample`, `c96_spurious_counterexample`, `c96_large_counterexample`, `c96_bounds_partial`, `c96_table_counterexample`. Dispatch is exact in all histories; what is reported is exact until a connection is closed that waits for events, after which the loop is dead or reports too much.

**C97 A stopping process gives everything back once** — partial. Model: `Exit`, `Start`, `AhoFree`. What `Start.workerInit` left, then every exit function in order, on a record of what is allocated, cleared, released and closed.
Theorems: `c97_clean_partial`, `c97_early_counterexample`, `c97_twice_counterexample`, `c97_lost_counterexample`, `c97_master`. Memory: all workers that have a pool; listening sockets are closed twice, unsent data is dropped, and a worker without a pool crashes.

**C98 Every TLS connection is set up as configured** — partial. Model: `TlsSetup`. The two cached contexts and the creation of connections with an arbitrary result of every OpenSSL call; allocations have numbers.
Theorems: `c98_certificate`, `c98_own`, `c98_limits_partial`, `c98_server_counterexample`, `c98_client_counterexample`, `c98_peer_counterexample`, `c98_memory`, `c98_watch`. Certificates and memory in all histories; limits as long as the calls that set them succeed; after one failure later connections have no limits; the certificate of the peer is never verified. OpenSSL itself is trusted.

**C99 A configuration text is read only as what is written in it, and one that is cut short is refused** — partial. Model: `CJson`. Soundness and completeness of the parser against a wider grammar (`Spec/CJsonLax.lean`), by positions in the buffer; a text that is cut short would have two readings.
Theorems: `c99_accepted_partial`, `c99_exact`, `c99_cut`, `c99_rest_counterexample`, `c99_bytes_counterexample`, `c99_hex_counterexample`, `c99_quote_counterexample`. Texts that are cut short are refused, and what is accepted is characterised exactly by a wider grammar (`Spec/CJsonLax.lean`); it is wider than JSON: anything may follow, strings are not checked, bad hexadecimal digits stand for 0, the closing quote can be read twice.

**C100 The configured workers run under a master that can be reached, or the start is reported as failed** — partial. Model: `Spawn`, `Process`, `Control`. The start of the workers with an arbitrary result of every `fork`; what follows is the master of `Process`, and the commands of `Control`.
Theorems: `c100_partial`, `c100_exact_partial`, `c100_fork_counterexample`, `c100_mask_counterexample`, `c100_single`, `c100_reload_counterexample`. Exact condition for a master with all its workers; a failed fork leaves workers without a master that no command reaches, with status 0; without workers -reload does nothing.

**C101 Sessions in one worker never mix their data** — partial. Model: `Worker`, `Tunnel`, `Mem`, `Meta`. Many relays whose buffers are blocks of the pool, as addresses in one memory. The invariant relates each to a session of `Tunnel` with lists of its own; blocks in use are apart, so a step of one leaves the bytes of the others.
Theorems: `c101_alone_partial`, `c101_own_bytes_partial`, `c101_released_partial`, `c101_started`, `c101_exhausted_counterexample`. All histories in which the calls of the pool return properly; when a size class runs out the pool overwrites memory, and nothing holds any more.

**C102 The relay works over TLS as it does over plain connections** — partial. Model: `TlsRelay`, `Ssl`. The relay handlers on a connection whose `ssl_read` and `ssl_write` are those of `Ssl`, with what `epoll` is still going to report. Invariants: which callbacks can be saved; where each byte is; what is registered. The counterexamples run for arbitrary data and, for the lost wake-up, any number of further segments.
Theorems: `c102_order_partial`, `c102_flush_partial`, `c102_progress_partial`, `c102_no_stall_partial`, `c102_write_resumes_partial`, `c102_upload_starves_counterexample`, `c102_wakeup_lost_counterexample`, `c102_null_call_counterexample`, `c102_echo_counterexample`, `c102_client_session_partial`, `c102_client_echo_counterexample`. Order and completeness for all results of the TLS layer unless the message before the relay had to wait; progress while nothing waits to be written to the TLS connection. False otherwise: a direction stands still, in one case for ever; NULL is called; uploads are sent back.

**C103 A response that has to wait is continued when the connection can take more** — partial. Model: `WebSend`, `Webser`, `Ssl`. The handlers that send a response, as event handlers on a connection whose `send` is `sends` or `ssl_write`, with interest and what `epoll` is going to report. Invariants: which handler continues and what it has sent; what is registered. Delivery by counting waits.
Theorems: `c103_order`, `c103_tls_progress`, `c103_tls_delivers`, `c103_plain_whole_partial`, `c103_plain_stalls_counterexample`, `c103_plain_waits_counterexample`. Over TLS: always. Without TLS only responses that the kernel takes at once: writing is never registered, so a response that has to wait is never continued and is cut by its timer.

**C104 Every wait of the server's exchange over TLS continues the step that was waiting** — partial. Model: `TlsServe`, `Serve`, `Ssl`, `TlsRelay`. The phases of `Serve` as event handlers on a connection whose handshake, `ssl_read` and `ssl_write` are those of `Ssl`, with callbacks, interest and what `epoll` is going to report. Invariant: which callbacks, saved callbacks and interest go with which phase. Refinement to `Serve`, whose theorems are used; the end is the start of `TlsRelay`.
Theorems: `c104_right_handler_partial`, `c104_wakes_partial`, `c104_upstream_partial`, `c104_same_session`, `c104_waiting_client_partial`, `c104_relay_start_partial`, `c104_session_order_partial`, `c104_handshake_counterexample`. All waits of all steps up to the relay, except a handshake that has to wait for writability, after which a callback calls itself without end. After a reply that had to wait the relay is in the state of the counterexample of C102. Writes are whole, since ssl.c does not enable partial writes.

**C105 The tunnel client reaches its relay over TLS whatever has to wait** — proved. Model: `TlsClient`, `Ssl`, `TlsRelay`. The phases of the client as event handlers on a connection whose handshake and `ssl_write` are those of `Ssl`, as in C104. Invariants: callbacks, saved callbacks and interest of each phase; where the local program's bytes are.
Theorems: `c105_right_handler`, `c105_resolve`, `c105_wakes`, `c105_reaches`, `c105_ends`, `c105_header`, `c105_relay_start`. All waits, up to the beginning of the relay. Which connections a timer releases is C47; a header that had to wait leaves its handler behind for the relay (C102). Writes are whole, since ssl.c does not enable partial writes.

**C106 Requests on a kept connection over TLS are answered one by one, in order** — partial. Model: `WebConn`, `HttpReq`, `HttpBody`, `Webser`, `WebRsp`, `WebSend`, `Ssl`. The parser, the router and the sending of responses, one after the other on one connection, with the callbacks and the interest they leave to each other. Invariants: what is registered in each phase (no hypothesis on what arrives); how many requests were answered and what was sent. The single steps are the theorems of C31, C33, C36, C57, C66, C67, C73 and C103. Delivery by counting waits.
Theorems: `c106_waits`, `c106_answers_partial`, `c106_delivers_partial`, `c106_buffer`, `c106_cut_counterexample`, `c106_behind_body_counterexample`. Callbacks and buffers: whatever arrives. Answers: every request begins with a TLS record of its own; its head is in one record or is cut right behind the request line (any other cut is not understood, c106_cut_counterexample and C32), its body may be cut anywhere. Requests behind another one in the same record are lost (C56). From the end of the handshake on, with secret mode off; from accept on, and secret mode, in C108. Allocations succeed.

**C107 A TLS connection that is given up does nothing but close, tells its peer, and is released soon** — partial. Model: `TlsClose`. The closing of a connection in time, on results of SSL_shutdown as OpenSSL documents it. Invariant: only the shutdown is registered, with a timer whose deadline is bounded by the last event; counterexamples for every peer that keeps sending and for every socket that stays full.
Theorems: `c107_only_closing`, `c107_released_partial`, `c107_held_counterexample`, `c107_answered_partial`, `c107_bye_partial`, `c107_bye_counterexample`. That nothing but the shutdown is done, and one release at most: all histories. Released five seconds after the last event; a peer that keeps sending a few bytes holds the connection for ever. The closing message is left out if the socket is full for five milliseconds. SSL_shutdown is modelled as documented.

**C108 A client of the TLS port reaches the service it speaks to** — partial. Model: `WebAccept`, `WebConn`, `Ssl`. Handshake, search for the header and hand-over as a machine over events, which ends in the machine of C106. Invariant: the two states callbacks and interest can be in during the handshake, and that header bytes and unread records are what arrived; then the theorems of C106 apply to the rest of the history. The counterexample is for every sequence of waits with one for writability among them.
Theorems: `c108_waits_partial`, `c108_handshake_counterexample`, `c108_endless`, `c108_web_partial`, `c108_answers_partial`, `c108_delivers_partial`, `c108_tunnel_partial`, `c108_first_request_counterexample`. All histories in which the handshake does not wait for writability; one that does ends in a call without end. In secret mode nothing of a tunnel client is lost up to the check of its header, but the first request of every web client is. The hand-over to the tunnel is the end of the model; requests as in C106. Allocations succeed.

**C109 Nobody can keep a session of the tunnel server waiting before its relay begins** — partial. Model: `Hold`, `Serve`, `Dns`. The phases of `Serve` with the handshake before them and the resolver inside them, and the deadline of the timer that is set. A measure of what the session can still take (bytes the automata can read, bytes to write) falls with every call that gets a result; the deadline plus ten seconds for each unit of it never rises.
Theorems: `c109_bounded_partial`, `c109_silent`, `c109_waits`, `c109_answer`, `c109_held_counterexample`, `c109_shake_held_counterexample`. Silence: always. A bound (ten seconds for each of 844 calls) as long as no handler is called in vain; every call in vain starts the timer anew, so a client that sends empty or incomplete TLS records holds its session for ever. How late the timers are looked at is a parameter; C112 bounds it.

**C110 Reading a JSON document gives back every block it took, whichever allocation fails** — proved. Model: `CJsonMem`, `CJson`, `Config`. The parser once more, with a heap. Simulation of the parser of C50, function by function: each call ends as that one does with a document laid out in new blocks, or fails with the heap unchanged because that one rejects or an allocation failed. The lists under construction are an invariant that knows what `cJSON_Delete` will free. Lookups by induction on the layout.
Theorems: `c110_parse`, `c110_enough`, `c110_delete`, `c110_nothing_left`, `c110_member`, `c110_child`, `c110_size`, `c110_root`. A block is an item or a string; addresses are given out once, so a use after free is undefined behaviour of the model. The number of an allocation decides whether it fails. Values are the integers the program reads; the text decides about acceptance as in C50.

**C111 A web client cannot hold a connection that makes no progress** — partial. Model: `WebHold`, `WebConn`, `WebSend`. The machine of C106 with the deadline of its timer, and that of C103 for connections without TLS. A measure of what the phase can still take (bytes a request can have, bytes left of the response) falls with every event that changes it; the deadline plus five seconds for each unit never rises except by events in vain, which are counted. Counterexample for every client that sends often enough.
Theorems: `c111_silent`, `c111_waits`, `c111_request_partial`, `c111_response_partial`, `c111_held_counterexample`, `c111_plain`, `c111_continued`. Silence and timers: always. A bound (five seconds for each of 20442 events of a request and for each byte of a response) as long as no event is in vain; every event in vain starts the timer anew, so a client that sends empty or incomplete TLS records holds its connection for ever. Requests over TLS, responses over TLS and without. From the end of the handshake on; how late the timers are looked at is a parameter, which C112 bounds.

**C112 No timer is forgotten: a timer that is left alone runs after a bounded time** — proved. Model: `Timer`, `BHeap`, `Loop`. An invariant of one timer that is due: its position in the array, and the latest deadline among the nodes above it. Insertion of a later one and removal of the first change neither for the worse; another removal raises the latest deadline only by moving the timer to a smaller position. So the latest deadline plus position times (longest delay + longest time between looks) never rises. For the loop: each turn is a pass, a step of the clock that is as long as the sleep and the work, and actions.
Theorems: `c112_all`, `c112_bounded`, `c112_loop`, `c112_late_counterexample`. The bound is the number of timers times the longest delay and the longest time between looks; for the loop of a worker also in real time, with the time the loop sleeps. A case shows that seconds of delay do occur with the delays of the program. The clock runs evenly (C77 is about one that does not).

**C113 The encryption helpers give back what they sealed, and notice changes** — partial. Model: `Cipher`. The library is an argument: any block cipher, any key stream, any tag function. Round trips by induction on the message; the leaks are equations that hold for every cipher because key and IV are constants.
Theorems: `c113_cfb_round`, `c113_cfb_mode`, `c113_no_context`, `c113_cfb_failed`, `c113_cfb_reveals_counterexample`, `c113_cfb_malleable_counterexample`, `c113_context`, `c113_gcm_round`, `c113_gcm_rejects`, `c113_gcm_once`, `c113_gcm_reveals_counterexample`, `c113_rand_partial`, `c113_rand_short_counterexample`. Round trips, refusal, contexts: always. Key and IV are constants in the source, so two messages do show their difference; the helper without a tag notices no change; a short read of the random device counts as success. No other file calls these helpers.

**C114 Requests on a plain connection to the web server are answered one by one, in order** — partial. Model: `WebPlain`, `WebConn`, `WebSend`, `HttpReq`, `HttpBody`, `Webser`, `WebRsp`. The parts of C106 put together for a connection without TLS: a receive call returns the bytes of any number of pieces that have arrived. Invariant of the connection and the rest of the script of a client: the responses to the requests that are done, and for the current one that, however its unread bytes are cut, reading them leads to its response (the request parser on one piece, C31, and the router, C104). That a client has read the response is decided by an independent reader (`Spec/Response`), so a request that has not been answered is not followed by the next.
Theorems: `c114_waits`, `c114_hangup`, `c114_answers_partial`, `c114_delivers_partial`, `c114_stalls_counterexample`, `c114_pipelined_counterexample`, `c114_abort_counterexample`. Callbacks: always. Order and content: for clients that send each head in one piece and the next request when they have read the response; all is delivered if no send call has to wait. A response that has to wait is never continued; a request sent right behind another one is lost; a request line of exactly 4096 bytes ends the worker. Heads that are cut are in C32.

**C115 A document printed as JSON text reads back as the same document** — partial. Model: `CJsonPrint`, `CJson`. The printer on a block of bytes, with `ensure`, `strlen` and every write bounds-checked. One statement for all steps: from a block that begins with what was printed so far, a step faults never, returns false only if memory ran out or the text of the whole would be too long, and otherwise has appended exactly the specified text; by mutual induction on the document. Reading back by showing that the specified text is in the grammar that characterises the parser (C99).
Theorems: `c115_print`, `c115_enough`, `c115_buffered`, `c115_valid_partial`, `c115_integer`, `c115_back_partial`, `c115_zero_counterexample`, `c115_infinite_counterexample`, `c115_neighbour_counterexample`, `c115_overflow_counterexample`, `c115_deep_counterexample`. The text, memory and failures: always. Reading back: documents nested at most 1000 deep, without zero bytes in strings, whose numbers the C library reads back from the text printed for them. Otherwise strings are cut, infinite numbers become null, neighbouring numbers are confused, and deep documents are refused.

**C116 Printing into a buffer of the caller stays in the buffer and succeeds if the text fits** — partial. Model: `CJsonPrint`. The same statement with `noalloc`: a step returns false exactly if its text and two bytes do not fit.
Theorems: `c116_preallocated`, `c116_exact_counterexample`. All sizes and contents; one byte more than the text and its zero byte is needed.

**C117 Minifying a JSON text keeps the document** — partial. Model: `CJsonMinify`, `CJson`. The loops on memory with two pointers compute a function of the text, since the bytes written lie before the bytes still to be read. That function and the specified one are followed through the grammar of C63: each production is turned into one without white space, whatever follows it.
Theorems: `c117_memory`, `c117_document_partial`, `c117_reads_partial`, `c117_backslash_counterexample`. Memory: always. The document is kept if no string or name in it ends in a backslash; behind one that does, strings lose their blanks.

**C118 A copy of a JSON item is complete, separate, and leaves nothing behind when it fails** — proved. Model: `CJsonDup`, `CJsonMem`. The new item with all the blocks that belong to it is followed through the copy: they are new, each is used once, nothing else has changed. By induction on how the original lies in memory; a failed allocation finds a list of complete copies, which deleting (C110) gives back.
Theorems: `c118_copy`, `c118_shallow`, `c118_same`, `c118_apart`, `c118_zero_counterexample`. Memory as in C110: addresses are given out once, the number of an allocation decides whether it fails. Pointers to the previous item: see C122. The last theorem shows what the zero byte means: a string with one is cut in the copy.

**C119 Comparing two JSON documents says whether they are the same** — partial. Model: `CJsonCompare`, `CJsonDup`, `Config`. The loops are shown to be quantifiers over elements and members; with unique names the first member found is the only one. Induction on the nesting, symmetry first. The number of calls is part of the model.
Theorems: `c119_compare_partial`, `c119_symmetric`, `c119_copy_partial`, `c119_twice_counterexample`, `c119_infinite_counterexample`, `c119_cost_array`, `c119_cost_object`, `c119_stops`, `c119_cost_counterexample`. Symmetry: always. The answer is right for documents without two members of the same name in an object and with finite numbers. Otherwise a document differs from its copy; an infinite number is the same as any other number but not as itself; and every level of objects doubles the number of calls.

**C120 Editing an array keeps its list of children in order** — proved. Model: `CJsonEdit`, `CJsonMem`. The children are a list of addresses, split at the place of the edit; the fields written are followed through the cases of the first, a middle, the last and the only item. A series by induction, with the items in no list as part of the state. For replacing, what the old item owns is what deleting (C110) frees.
Theorems: `c120_append`, `c120_detach`, `c120_insert`, `c120_detachAt`, `c120_replace`, `c120_replace_self`, `c120_append_self`, `c120_series`, `c120_series_item`, `c120_append_shared_counterexample`, `c120_append_unlinked_counterexample`. Pointers that the functions check for NULL are not NULL, indices are not negative, and no item is a reference or has a constant name. Replacing is proved as a single step; a series consists of adding, inserting and detaching. The last theorem shows why an item must be in no other list.

**C121 Members of a JSON object are added, taken out and replaced by name** — partial. Model: `CJsonNamed`, `CJsonEdit`, `CJsonDup`. A block handed out is new, a name is no item, so none of the links is touched by renaming; then as in C120. The loop that looks for the name is the first match in the list of members.
Theorems: `c121_add`, `c121_add_no_memory`, `c121_add_self`, `c121_detach`, `c121_replace_partial`, `c121_replace_no_memory`, `c121_replace_own_name_counterexample`. Adding and taking out: as stated. Replacing: only if the name given is not the block with the replacement's own name; that one is freed before it is copied. Names are compared without regard to case; no item is a reference or has a constant name; all members have names.

**C122 In a JSON document that was read or copied all lists are linked both ways** — proved. Model: `CJsonMem`, `CJsonDup`, `CJsonEdit`. Followed along the run, on success: while a list is being read or copied, its items so far are linked, and all other new items already have their children in order; items that belong to one list are in no other, so the writes for one list leave the others alone. Induction on the nesting counter and on the loop. With C110 and C118 the children are blocks of the document.
Theorems: `c122_parse`, `c122_copy`, `c122_extend`. Memory as in C110 and C118. Whatever value is read or copied, for every pattern of failing allocations that lets it succeed.

**C123 Created JSON values are complete or nothing is left of them** — proved. Model: `CJsonCreate`, `CJsonNamed`, `CJsonDup`. The lemmas of C118 on a new item with its blocks, the loop that hooks one child after the other, and giving back what is half done apply to creating too, with the creating of one element as a parameter. Adding to an object: C121 for the name and the list.
Theorems: `c123_item`, `c123_string`, `c123_numbers`, `c123_strings`, `c123_linked`, `c123_add`, `c123_add_string`. Memory as in C110. Raw text and references are not modelled; the integer beside the floating value of a number is part of its type. The counts of the arrays are not negative.

**C124 Changing the string of a JSON item gives it that string** — partial. Model: `CJsonCreate`. By cases on the lengths and on the allocation; a new block differs from all that are there.
Theorems: `c124_set_partial`, `c124_other`, `c124_own_counterexample`, `c124_null_counterexample`. As stated if the string given is a block of its own. The item's own string is copied onto itself by strcpy, for which C says nothing; a pointer into the middle of the own string is not expressible in the model.

**C125 References and constant names in a JSON document: nothing that is only referred to is freed, nothing that is owned is lost** — partial. Model: `CJsonRef`, `CJsonMem`, `CJsonEdit`, `CJsonNamed`. Deleting with regard to the bits is deleting (C110) in the memory from which the pointers that own nothing are removed; it only gives blocks back, so what it does to the masked memory determines what it does to the real one. A list to which a reference is added owns one block more, by induction over the list. Adding: C120 and C121 after the allocation of the reference.
Theorems: `c125_delete`, `c125_shows`, `c125_copy`, `c125_back`, `c125_add`, `c125_add_no_memory`, `c125_add_delete`, `c125_add_named_partial`, `c125_add_named_no_memory`, `c125_leak_counterexample`, `c125_const`, `c125_const_self`, `c125_string`, `c125_array`, `c125_object`, `c125_set`. As stated except for adding a reference to an object when there is memory for the reference but not for its name: the reference is lost. The two bits are kept beside the memory, by address. Raw text is not modelled.

## 7. Testing the theorems against wrong programs

`seeded/LOG.jsonl` has one line per attempt: the definition of the model that was edited, the edit, the claim it breaks, the theorems that no longer proved, and the theorems tightened afterwards. Edits are made in a copy of the project, which is rebuilt. In the later attempts the property file of the edited model was built first, and the rest only if it still proved, so `failed` need not name every theorem that fails. Where the error is in a lemma, `failed` names the claimed theorems that depend on the lemma, from a list of dependencies taken before, and `through` names the lemma. Not in the log: 267 edits after which the model itself did not compile, which says nothing about the theorems. Most are small systematic changes (comparison, constant, branch, missing update), others are written by hand after typical faults. An edit after which everything still proves either led to a stronger or new theorem, or is recorded with the reason why it breaks no claim (for example a change of an internal number, or of a case that cannot be reached).

Typical strengthenings that came out of it: statements use literal numbers rather than the constants of the model; conditional claims became equivalences; claims about contents were added to claims about positions.

## 8. Faults of the code found

Each is proved of the model by the theorem named, or is noted here without proof where none is named.

**Tunnel and SOCKS5**
* Length byte 0 in a request or greeting makes the parser store beyond its arrays; 255-byte names have no terminator (`c04_*`).
* The success reply carries a truncated, byte-swapped address (`c05_address_counterexample`).
* When one side closes, up to 12288 bytes of the other direction are dropped (`c10_*`).
* The key matcher keeps its state between look-ups, so refused attempts change later decisions; keys with bytes above 127 and partial keys are admitted (`c11_*`, `c12_*`). Compilation dereferences NULL for some key files (`c14_counterexample`).
* Bytes that arrive together with the authorisation header, the greeting or the request are discarded (`c52_*`, `c82_*`).
* A greeting is answered with method 0 whether or not it was offered, and for every version (`c81_*`); refused and failed requests get no reply (`c83_*`).
* The client keeps cached data only until the local program half-closes (`c48_half_close_counterexample`).
* A client that sends empty or incomplete TLS records keeps its session waiting for ever, before the handshake and after it, since every report starts the timer anew; one that sends byte by byte is cut off, but after hours (`c109_*`).
* The same holds for a connection of the web server over TLS (`c111_held_counterexample`), five seconds at a time; a plain connection cannot be held, but neither does it get the rest of a response that had to wait (`c111_plain`, `c103_*`). While a response waits over TLS, `webser_try_read` is never called: that the client has gone is noticed by the next write or the timer.
* Idle timers close sessions whose destination is slow although bytes move (`c79_slow_counterexample`).
* A reset while a look-up is pending leads to use after free; failed look-up set-up leaks or crashes; a failed connect closes a descriptor twice; the handshake timer frees one side only (`c47_*`).

**TLS**
* `ssl_clear_error` never ends if OpenSSL's error queue is not empty (`c58_hang_counterexample`).
* The tunnel client accepts any certificate, so whoever answers gets the key (`c98_peer_counterexample`). A failed setting leaves a context without limits of versions and ciphers, which later connections use (`c98_server_counterexample`).
* Callbacks and interest saved while an operation waits are restored later although they are stale; a NULL callback can be called; two callbacks call themselves endlessly (`c40_*`).
* In the relay: while a write to the TLS side waits nothing is read from it, so a client that sends before it reads can lock up with its target (`c102_upload_starves_counterexample`). A read that waits then removes the interest in writing, and data for the client is never sent (`c102_wakeup_lost_counterexample`). A read that has to write first calls NULL (`c102_null_call_counterexample`). After a reply that had to wait, uploads can be sent back to the client (`c102_echo_counterexample`, `c86_gap_counterexample`). The same on the client's side after a header that had to wait: downloads are sent back to the server (`c102_client_echo_counterexample`).
* A connection that is given up waits five milliseconds for its peer; if its socket is full that long it is closed without the closing message of TLS, but a peer that sends a few bytes in time is waited for again and again, five seconds each (`c107_*`).
* On the TLS port of the web server, too, a handshake that waits for writability makes `ssl_handshake_cb` call itself without end (`c108_handshake_counterexample`); in secret mode a web client that sends further requests gets the responses to all but the first, so that it takes each for the response to the request before (`c108_first_request_counterexample`).

**Web server**
* A request cut inside its line or fields makes the worker spin (`c32_*`); the only cut of a head that is understood is the one right behind the request line (`c32_cut_iff`). Short requests, long targets and targets without a dot crash it (`c53_*`).
* Targets of 1024 bytes and more escape the root (`c33_long_target_counterexample`).
* A short write of the last part ends a response early; large files are announced with a negative length (`c34_*`, `c73_large_counterexample`).
* Without TLS a response that does not fit into the socket's buffer is never continued, because writing is never registered; its timer cuts it (`c103_*`, `c114_stalls_counterexample`). A request line of exactly 4096 bytes ends the worker (`c114_abort_counterexample`).
* A missing file gets a status line without line end (`c54_*`, `c74_*`).
* Keep-alive leaks a buffer per request and drops pipelined requests (`c56_*`; on a whole plain connection `c114_pipelined_counterexample`). Bodies above 16344 bytes are refused although 10 MiB are documented (`c57_*`).
* Content-Length and Connection are matched by prefix, numbers wrap, trailing garbage is ignored (`c66_*`, `c67_*`).
* On the shared port the first bytes of web requests are lost, and the TLS header of the secret protocol is taken for TLS (`c46_*`, `c55_*`).
* When no memory is left for the response header or for a further request, the connection is freed twice or its record used after release; bodies of requests, and in secret mode the first buffer, are never freed (`c84_*`).

**Resolver**
* Responses are not matched with the question; records with empty data and additional sections confuse the walk; bytes beyond the response are read (`c27_*`, `c28_*`). Expired entries are answered, entries are removed early, long lifetimes wrap (`c29_*`).

**Runtime**
* `heap_del` breaks the heap order, so timers fire late (`c22_*`, `c23_*`), by seconds with the delays of the program (`c112_late_counterexample`), but not without a bound (`c112_bounded`). Timers use the wall clock (`c77_*`).
* The (unused) encryption helpers have a constant key and IV: two messages show their difference, and one of the helpers notices no change (`c113_*`).
* The event loop's saved indices survive a batch, so events are lost or delivered to the wrong handler (`c38_*`). Reports with only an error bit call no handler.
* The pool checks only its first class for exhaustion (`c16_*`).
* Accepting stops at the first failure although connections are pending, and new connections have five milliseconds to send something (`c80_*`, `c85_*`).
* The supervisor does not retry a failed fork, and does not end if its first worker has exited (`c41_*`, `c59_*`). A reload removes the PID file, so later commands do not reach the program (`c78_*`).
* Signals that arrive while the program starts or ends use a NULL or freed context (`c94_*`). A stop request between the look at the flag and the wait is noticed only when the wait is over (`c95_*`). The number of worker 255 is the mark of the master, so it starts further workers instead of ending; very large numbers of workers give a process table that is too small (`c93_*`). A reload does not read the configuration again (`c92_*`).
* A failed fork at start-up makes the master return with status 0 and leaves workers without one, which no command reaches; without workers the reload signal is ignored (`c100_*`). Not proved: `proc_pid_form_file` leaks a descriptor (the process ends right after).
* When a size class of the pool runs out, memory next to its list heads is overwritten, and the sessions of the worker are no longer apart (`c101_*`).
* A daemon's start is reported as a success whatever fails afterwards, and a failed write leaves a broken PID file (`c88_*`). A worker whose initialisation failed runs on: without its key file it refuses all keys and crashes at the first web request, without memory it crashes at once, without `epoll` it ignores everything (`c89_*`).
* In the build with `select`, a closed connection stays in the sets: the loop then fails for ever or reports too much; large descriptors and many connections overrun tables (`c96_*`). A worker without a pool crashes while stopping; listening sockets are closed twice; unsent data is dropped (`c97_*`).
* Long log lines are copied from beyond the stack buffer; level names are swapped (`c44_*`, `c60_*`).
* Ring buffer, search tree and substring search are wrong in several ways (`c42_*`, `c43_*`, `c45_*`, `c61_*`).

**Configuration**
* A missing or invalid file is ignored; values of the wrong type dereference NULL or count as 0; more than 64 ports overflow an array; ports wrap; long texts are cut; more than eight ports are not served (`c69_*`–`c71_*`). A configuration cut short anywhere is ignored as a whole (`c70_cut_counterexample`). A key file whose array ends beyond 4096 bytes, or is not returned by one `read`, leaves the server without keys (`c72_*`).
* cJSON: names are compared without case (used by the program as such); raw control characters and text after the document are accepted; `\u` with bad digits gives 0, and can take the closing quote into the string; numbers above 63 characters are cut (`c49_*`, `c63_*`, `c99_*`).
* cJSON, printing: a string is cut at its first zero byte; infinite numbers become `null`; a number that 15 digits do not tell from its neighbour, or that they round to infinity, is printed with 15 digits and read back as another; documents nested more than 1000 deep are printed but not read; a buffer of the caller must be one byte larger than needed (`c115_*`, `c116_*`).
* cJSON, minifying: behind a string that ends in an escaped backslash the inside and the outside of strings are confused, so blanks are taken out of strings (`c117_*`).
* cJSON, copying and comparing: a string with a zero byte is cut in the copy (`c118_zero_counterexample`). An object with a name twice differs from its copy, an infinite number equals every number but itself, and every level of objects doubles the work of a comparison (`c119_*`).
* cJSON, editing: an item put into an array while it is in another one drags the rest of that list along (`c120_append_shared_counterexample`); an item put into an array made by `cJSON_CreateArrayReference` from an item of no list is lost although the answer is success (`c120_append_unlinked_counterexample`). Replacing a member by name, with the replacement's own name given, reads the name after it was freed (`c121_replace_own_name_counterexample`). Setting an item's string to its own string copies it onto itself (`c124_own_counterexample`). Adding a reference to an object loses the reference when there is no memory for its name (`c125_leak_counterexample`).

## Appendix: axioms of each claimed theorem

* none (14 theorems): `Verif.S5.c05_reply_when_connected`, `Verif.Dns.c29_wrap_counterexample`, `Verif.Web.c34_open_failure_counterexample`, `Verif.Event.c38_lost_counterexample`, `Verif.Event.c38_wrong_handler_counterexample`, `Verif.Event.c39_step`, `Verif.Event.c39_interest`, `Verif.Event.c39_select`, `Verif.Ssl.c40_stale_write_callback_counterexample`, `Verif.Ssl.c40_stale_read_callback_counterexample`, `Verif.Ssl.c40_null_call_counterexample`, `Verif.Session.c47_faults`, `Verif.Web.c56_pipelined_lost_counterexample`, `Verif.Cipher.c113_no_context`.
* propext (52 theorems): `Verif.S5.c04_name_read_partial`, `Verif.S5.c05_reply_only_when_connected_partial`, `Verif.Queue.c18_neighbours`, `Verif.Net.c19_eintr_invisible`, `Verif.Meta.c20_run_fails`, `Verif.Http.c31_empty_value_counterexample`, `Verif.Http.c31_sixteen_fields_counterexample`, `Verif.Http.c32_incomplete_accepted_counterexample`, `Verif.Web.c36_method_prefix_counterexample`, `Verif.Event.c38_error_only_counterexample`, `Verif.Ssl.c40_restored_partial`, `Verif.Ssl.c40_handshake`, `Verif.Ssl.c40_handshake_next_partial`, `Verif.Ssl.c40_stale_interest_counterexample`, `Verif.Ssl.c40_endless_counterexample`, `Verif.Ssl.c40_handshake_loop_counterexample`, `Verif.Ssl.c40_handshake_interest_counterexample`, `Verif.Session.c47_early_data`, `Verif.Session.c47_dns_reset_counterexample`, `Verif.Session.c47_dns_setup_counterexample`, `Verif.Session.c47_dns_leak_counterexample`, `Verif.Session.c47_handshake_timeout_counterexample`, `Verif.Session.c47_double_close_counterexample`, `Verif.Web.c54_missing_file_counterexample`, `Verif.Ssl.c58_no_hang_partial`, `Verif.Log.c60_error_partial`, `Verif.Log.c60_swapped_counterexample`, `Verif.Http.c64_ipv6_counterexample`, `Verif.Http.c66_white_space`, `Verif.WebLife.c84_header_counterexample`, `Verif.WebLife.c84_header_waits`, `Verif.Ident.c93_starts`, `Verif.Ident.c93_worker_255_counterexample`, `Verif.Signals.c94_before_counterexample`, `Verif.Select.c96_large_counterexample`, `Verif.TlsSetup.c98_certificate`, `Verif.TlsClient.c105_resolve`, `Verif.TlsClose.c107_bye_counterexample`, `Verif.CJsonMem.c120_replace_self`, `Verif.CJsonMem.c120_append_self`, `Verif.CJsonMem.c120_append_shared_counterexample`, `Verif.CJsonMem.c120_append_unlinked_counterexample`, `Verif.CJsonMem.c121_add_no_memory`, `Verif.CJsonMem.c121_add_self`, `Verif.CJsonMem.c121_replace_no_memory`, `Verif.CJsonMem.c121_replace_own_name_counterexample`, `Verif.CJsonMem.c124_other`, `Verif.CJsonMem.c124_null_counterexample`, `Verif.CJsonMem.c125_add_no_memory`, `Verif.CJsonMem.c125_add_named_no_memory`, `Verif.CJsonMem.c125_const_self`, `Verif.CJsonMem.c125_set`.
* propext, Quot.sound (241 theorems): `Verif.S5.c01_port_bytes`, `Verif.S5.c03_reply`, `Verif.S5.c05_reply_delivery`, `Verif.Ip4.c06_text_fits`, `Verif.Tunnel.c10_other_direction_counterexample`, `Verif.Auth.c11_history_counterexample`, `Verif.Auth.c11_fresh_counterexample`, `Verif.Auth.c11_high_bytes_counterexample`, `Verif.Auth.c12_history_counterexample`, `Verif.Auth.c13_ended`, `Verif.Auth.c14_counterexample`, `Verif.Mem.c16_outcome_partial`, `Verif.Mem.c16_starved_counterexample`, `Verif.Mem.c16_corrupt_counterexample`, `Verif.Mem.c16_foreign_free_counterexample`, `Verif.Queue.c18_observers`, `Verif.Queue.c18_remove_twice`, `Verif.Net.c19_receive`, `Verif.Meta.c20_append`, `Verif.Meta.c20_run`, `Verif.Meta.c20_run_steps`, `Verif.Meta.c20_dump`, `Verif.Timer.c21_times`, `Verif.Timer.c22_late_counterexample`, `Verif.BHeap.c23_deletion_exact`, `Verif.BHeap.c23_counterexample`, `Verif.BHeap.c24_full`, `Verif.EzHash.c25_lookup`, `Verif.EzHash.c25_refines`, `Verif.EzHash.c25_collisions`, `Verif.EzHash.c25_delete`, `Verif.EzHash.c25_no_abort`, `Verif.EzHash.c25_empty_key_counterexample`, `Verif.Dns.c26_question`, `Verif.Dns.c26_no_overflow`, `Verif.Dns.c26_empty_label_counterexample`, `Verif.Dns.c27_first_a_partial`, `Verif.Dns.c27_empty_data_counterexample`, `Verif.Dns.c27_plain_owner_counterexample`, `Verif.Dns.c27_additional_section_counterexample`, `Verif.Dns.c27_counts`, `Verif.Dns.c28_inside_partial`, `Verif.Dns.c28_identifier_ignored`, `Verif.Dns.c28_unrelated_response_counterexample`, `Verif.Dns.c28_stale_bytes_counterexample`, `Verif.Dns.c28_over_read_counterexample`, `Verif.Dns.c28_short`, `Verif.Dns.c29_exact_partial`, `Verif.Dns.c29_stale_counterexample`, `Verif.Dns.c29_stale_forever_counterexample`, `Verif.Dns.c29_early_removal_counterexample`, `Verif.Dns.c30_right_name`, `Verif.Dns.c30_empty_name_abort_counterexample`, `Verif.Http.c31_one_piece_partial`, `Verif.Http.c32_line_boundary_partial`, `Verif.Http.c32_payload_partial`, `Verif.Http.c32_rest_never_read_counterexample`, `Verif.Http.c32_hang_counterexample`, `Verif.Http.c32_hang_header_counterexample`, `Verif.Http.c32_full_line_abort_counterexample`, `Verif.Http.c32_cut_counterexample`, `Verif.Web.c33_refused_partial`, `Verif.Web.c33_served`, `Verif.Web.c33_path`, `Verif.Web.c33_root_prefix`, `Verif.Web.c33_long_target_counterexample`, `Verif.Web.c33_trailing_counterexample`, `Verif.Web.c34_short_write_counterexample`, `Verif.Web.c35_type_partial`, `Verif.Web.c35_no_dot_counterexample`, `Verif.Web.c36_exact`, `Verif.Web.c36_iff`, `Verif.Web.c36_long_path_counterexample`, `Verif.Http.c36_method_iff`, `Verif.Ssl.c40_restored_one_partial`, `Verif.Ssl.c40_wakeup_partial`, `Verif.Ssl.c40_new_interest`, `Verif.Process.c41_no_start`, `Verif.Process.c41_signalled_partial`, `Verif.Process.c41_shutdown_stuck_counterexample`, `Verif.Process.c41_fork_failed_counterexample`, `Verif.Ring.c42_second_round_counterexample`, `Verif.Ring.c42_invented_counterexample`, `Verif.Ring.c42_pull_counterexample`, `Verif.Bst.c43_refines_partial`, `Verif.Bst.c43_insert_find_partial`, `Verif.Bst.c43_delete_iff`, `Verif.Bst.c43_minus_one_counterexample`, `Verif.Bst.c43_stale_counterexample`, `Verif.Bst.c43_stack_counterexample`, `Verif.Log.c44_exact_partial`, `Verif.Log.c44_long_line_counterexample`, `Verif.Log.c44_long_prefix_counterexample`, `Verif.Log.c44_nul_counterexample`, `Verif.Str.c45_first_partial`, `Verif.Str.c45_abort_counterexample`, `Verif.Str.c45_beyond_counterexample`, `Verif.Str.c45_read_counterexample`, `Verif.Peek.c46_keeps`, `Verif.Session.c47_no_fault_partial`, `Verif.Session.c47_released_partial`, `Verif.Session.c47_closed_once_partial`, `Verif.Session.c47_failure`, `Verif.Session.c47_goes_on`, `Verif.Session.c47_waits`, `Verif.Session.c47_relay`, `Verif.TunnelC.c48_half_close_counterexample`, `Verif.CJson.c50_depth`, `Verif.Seq.c51_arr`, `Verif.Seq.c51_list`, `Verif.Seq.c51_free_arr`, `Verif.Auth.c52_aligned_partial`, `Verif.Auth.c52_pipelined_counterexample`, `Verif.Web.c53_short_request_counterexample`, `Verif.Web.c53_echo_counterexample`, `Verif.Web.c53_no_dot_counterexample`, `Verif.Web.c53_overflow_counterexample`, `Verif.Web.c54_crlf_partial`, `Verif.Web.c55_tunnel_partial`, `Verif.Web.c55_request_lost_counterexample`, `Verif.Web.c55_short_request_counterexample`, `Verif.Web.c56_leak_counterexample`, `Verif.Web.c56_exhaustion_counterexample`, `Verif.Ssl.c58_hang_counterexample`, `Verif.Process.c59_reload_partial`, `Verif.Process.c59_late_counterexample`, `Verif.Process.c59_dead_worker_counterexample`, `Verif.Bst.c61_freed_partial`, `Verif.Bst.c61_leak_counterexample`, `Verif.CJson.c63_long_number_counterexample`, `Verif.CJson.c63_bom_short_counterexample`, `Verif.Http.c64_absolute_partial`, `Verif.Log.c68_routed`, `Verif.Config.c70_reads_partial`, `Verif.Config.c70_ignored_counterexample`, `Verif.Config.c70_grown_counterexample`, `Verif.Config.c72_long_counterexample`, `Verif.Control.c78_short_write`, `Verif.Control.c78_no_pid`, `Verif.Control.c78_second_counterexample`, `Verif.Tunnel.c79_idle_closed`, `Verif.Accept.c80_once`, `Verif.Accept.c80_taken_partial`, `Verif.Accept.c80_refused_counterexample`, `Verif.Accept.c80_behind_counterexample`, `Verif.Accept.c80_next_partial`, `Verif.Serve.c83_no_false_success_partial`, `Verif.WebLife.c84_no_fault_partial`, `Verif.WebLife.c84_balance_partial`, `Verif.WebLife.c84_lost_partial`, `Verif.WebLife.c84_expires`, `Verif.WebLife.c84_keepalive_counterexample`, `Verif.WebLife.c84_body_counterexample`, `Verif.Accept.c85_quick_partial`, `Verif.Accept.c85_slow_counterexample`, `Verif.Conns.c87_stop_seen`, `Verif.Conns.c87_pass`, `Verif.Start.c89_web_partial`, `Verif.Start.c89_no_keys_partial`, `Verif.Start.c89_keyfile_counterexample`, `Verif.Start.c89_memory_counterexample`, `Verif.Start.c89_epoll_counterexample`, `Verif.Reload.c92_config_counterexample`, `Verif.Ident.c93_table`, `Verif.Ident.c93_ends_partial`, `Verif.Signals.c94_master_partial`, `Verif.Signals.c94_early_counterexample`, `Verif.Stop.c95_noticed_partial`, `Verif.Exit.c97_early_counterexample`, `Verif.Exit.c97_master`, `Verif.TlsSetup.c98_own`, `Verif.TlsSetup.c98_limits_partial`, `Verif.TlsSetup.c98_server_counterexample`, `Verif.TlsSetup.c98_client_counterexample`, `Verif.TlsSetup.c98_peer_counterexample`, `Verif.TlsSetup.c98_watch`, `Verif.Spawn.c100_mask_counterexample`, `Verif.Spawn.c100_single`, `Verif.Spawn.c100_reload_counterexample`, `Verif.Worker.c101_started`, `Verif.Worker.c101_exhausted_counterexample`, `Verif.Props.WebSend.c103_plain_waits_counterexample`, `Verif.TlsServe.c104_right_handler_partial`, `Verif.TlsServe.c104_wakes_partial`, `Verif.TlsServe.c104_upstream_partial`, `Verif.TlsServe.c104_same_session`, `Verif.TlsServe.c104_relay_start_partial`, `Verif.TlsServe.c104_handshake_counterexample`, `Verif.TlsClient.c105_right_handler`, `Verif.TlsClient.c105_wakes`, `Verif.TlsClient.c105_reaches`, `Verif.TlsClient.c105_ends`, `Verif.TlsClient.c105_relay_start`, `Verif.WebConn.c106_cut_counterexample`, `Verif.TlsClose.c107_only_closing`, `Verif.TlsClose.c107_released_partial`, `Verif.TlsClose.c107_held_counterexample`, `Verif.TlsClose.c107_answered_partial`, `Verif.TlsClose.c107_bye_partial`, `Verif.WebAccept.c108_handshake_counterexample`, `Verif.WebAccept.c108_endless`, `Verif.Hold.c109_silent`, `Verif.Hold.c109_waits`, `Verif.Hold.c109_answer`, `Verif.Hold.c109_held_counterexample`, `Verif.Hold.c109_shake_held_counterexample`, `Verif.CJsonMem.c110_child`, `Verif.CJsonMem.c110_size`, `Verif.WebHold.c111_silent`, `Verif.WebHold.c111_held_counterexample`, `Verif.WebHold.c111_plain`, `Verif.WebHold.c111_continued`, `Verif.Timer.c112_late_counterexample`, `Verif.Cipher.c113_cfb_round`, `Verif.Cipher.c113_cfb_mode`, `Verif.Cipher.c113_cfb_failed`, `Verif.Cipher.c113_cfb_reveals_counterexample`, `Verif.Cipher.c113_cfb_malleable_counterexample`, `Verif.Cipher.c113_context`, `Verif.Cipher.c113_gcm_round`, `Verif.Cipher.c113_gcm_rejects`, `Verif.Cipher.c113_gcm_once`, `Verif.Cipher.c113_gcm_reveals_counterexample`, `Verif.Cipher.c113_rand_partial`, `Verif.Cipher.c113_rand_short_counterexample`, `Verif.WebPlain.c114_waits`, `Verif.WebPlain.c114_hangup`, `Verif.WebPlain.c114_stalls_counterexample`, `Verif.WebPlain.c114_abort_counterexample`, `Verif.CJsonMinify.c117_memory`, `Verif.CJsonMem.c120_append`, `Verif.CJsonMem.c120_detach`, `Verif.CJsonMem.c120_insert`, `Verif.CJsonMem.c121_add`, `Verif.CJsonMem.c121_detach`, `Verif.CJsonMem.c124_set_partial`, `Verif.CJsonMem.c124_own_counterexample`, `Verif.CJsonMem.c125_add`, `Verif.CJsonMem.c125_add_named_partial`, `Verif.CJsonMem.c125_leak_counterexample`, `Verif.CJsonMem.c125_const`.
* propext, Classical.choice, Quot.sound (313 theorems): all claimed theorems not named in another item.
