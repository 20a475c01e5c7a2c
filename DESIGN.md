# Verification design: nqminds/brski

The object of study is the C/C++ source under `/repo/src` (the BRSKI voucher
library, the pledge / registrar / MASA applications and their helpers).  The
model and the proofs are in Lean 4 (`lean/Verif/*.lean`, root `lean/Verif.lean`).
Properties are listed in `properties.jsonl`, per-property status in
`MANIFEST.json`.

## 1. Approach

* Every modelled C function is a total computable Lean function whose doc comment
  cites file and lines.  Undefined behaviour (out-of-bounds access, NULL
  dereference, use after free, double free) is a distinct outcome: `Outcome.ub`,
  never merged with an error return.
* Byte strings are `List UInt8`; C strings are byte lists without NUL.
* Memory is modelled at the granularity the property needs:
  - *buffers with bounds-checked writes* for base64, hex formatting, stdin,
    strlcpy and the JSON joiner;
  - *an ownership ledger / block heap* for vouchers, array decoding, config
    release and certificate list loading;
  - *a pointer heap* (`Nat → Option Node`) for the doubly linked lists.
* Allocation is a parameter (an oracle telling whether the next allocation
  succeeds) wherever the property mentions memory exhaustion; elsewhere the
  model says that allocation succeeds.
* Cryptography (OpenSSL) is a structure of uninterpreted functions
  (`d2i`, signature check, chain check, signing).  Assumptions about it
  (correctness of signing, unforgeability) are explicit hypotheses of exactly
  those theorems that need them.
* Specifications (`Spec*` definitions) do not use the model's helper functions.
* Each property theorem is accompanied by an `example` showing a concrete
  non-trivial instance satisfying its hypotheses.
* If the code violates a property, the negation is proved with a concrete
  witness (`…_violated`), and what does hold is proved as `…_partial`.

## 2. Property by property plan

| id | model | proof |
|----|-------|-------|
| C01 | `base64_gen_encode/decode` as loops on bounds-checked buffers | refinement to functional codec, then list induction |
| C02 | same | refinement to independent RFC 4648 spec over bit lists / 24-bit groups |
| C03 | same, `ub` on out-of-range write | loop invariant `pos ≤ 3*(valid count)/4` |
| C04 | same | decode depends only on the filtered text |
| C05 | decoder + ownership of the output pointer | violated; witness text `"A"`; `C05_exact`: the pointer dangles if and only if the first padded group of the completed text has three or four `=`, all other failures give NULL |
| C57 | decoder | violated: padding inside a group, trailing data; `C57_exact`: accepted if and only if the completed text is the padding-free RFC 4648 text of the result, or begins with one followed by a group with one or two `=` anywhere, which gives the last bytes; partial: complete unpadded groups |
| C06 | `serialize_bool2str`, `serialize_str2bool` | case analysis on text, lifted to all byte strings; `C06_exact` (`PropsExact.lean`) also for text with NULs |
| C07 | `strftime`/`strptime` for the fixed format (glibc semantics, trusted) | digit round trip lemma |
| C08 | same | violated (Feb 31, trailing text); partial: all fields in range, shape of the accepted prefix; exact (`PropsTimeExact.lean`): a text is accepted with given numbers iff it is made of the six fields, each at most as long as the parser reads, with the separators, followed by anything |
| C09 | voucher record + every setter/getter/clear | refinement to abstract typed map over op sequences; the memory of the block-heap model (C12, C13) is shown to hold exactly the records of the value model, in both directions (`PropsRefine.lean`) |
| C10 | setters with allocation oracle | violated on OOM; partial: any non-allocation failure; `C10_exact` (`PropsExact.lean`): which calls fail and reset the attribute |
| C11 | same | invariant over op sequences and deserialisation |
| C12 | voucher over block heap | no double free: invariant; leak on overwrite: violated with witness; exact (`PropsLeak.lean`): the blocks left by `free_voucher` are those there before, the caller's, and one per overwritten pointer (ghost list, treated as the caller's by the invariant) |
| C13 | voucher over block heap | separation invariant |
| C14 | serializer + jsmn tokenizer + deserializer | symbolic execution of the tokenizer over the serializer's output |
| C15 | same | violated: serial containing `"`; witness; partial: the serial number is the text of a JSON string, with or without escapes (they are neither made nor resolved, so they come back unchanged) |
| C16 | deserializer with bounds-checked token table/buffer | token well-formedness invariant of jsmn |
| C17 | deserializer | induction over the members; types of found tokens never change (all buffers) |
| C18 | deserializer | violated: prefix/empty name accepted; witness; partial; `C18_exact` (`PropsExact.lean`): a flat document named by a prefix is treated as the one with the full name |
| C19 | deserializer, serializer | counting |
| C20 | serializer | list characterisation |
| C21 | JSON joiner on bounds-checked buffers | loop invariant |
| C22–C24 | pointer heap lists | ring invariant; OOM push violated |
| C25 | `compare_binary_array` | direct |
| C26–C32 | `request.c` functions over abstract crypto | decision characterisation |
| C33 | `crypto_verify_cert` + `verify_masa_pledge_voucher` | violated with NULL domain store; partial with a store; `C33_exact`: without one, every decodable registrar certificate will do |
| C34 | same | violated (expiry not consulted); `C34_blind`: two authentic vouchers that agree in serial number, nonce and pinned certificate are accepted by the same pledges with the same result |
| C35 | composition of the four functions (`PropsFlow.lean`) | symbolic composition using C14 |
| C36 | runs of MASA, pledges and an adversary that chooses every message (`PropsAdversary.lean`); unforgeability is a hypothesis of the run | violated by serial number injection; partial: serial numbers that are texts of JSON strings, or unforgeable pledge signatures |
| C37 | `crypto_verify_cms`, `load_cert_files` | violated for the empty configuration; partial; `C37_exact` |
| C38 | `get_certificate_stack/store` | list induction |
| C43 | `load_cert_files` on the pointer heap | ownership invariant `Own` (`ConfigLemmas.lean`); violated on failure; partial |
| C44 | minIni `ini_getkey/ini_gets` + `load_config_value_list` on the pointer heap | violated for repeated keys; exact characterisation; partial for agreeing entries |
| C45 | `load_*_config`, `free_*_config_content` on the pointer heap, every allocation failure | invariant `Own` over all members; violated on exhaustion inside a list load |
| C58 | same | same invariant, with contents |
| C46 | route tables, registration, dispatch (`Routes.lean`, with the parts of the bundled httplib.h) | violated (regular expression dot, HEAD); exact characterisation `C46_partial` over an independent endpoint list |
| C47 | header parsing, multimap order, merging loop | violated (case, percent decoding); exact: list induction over insertions into the sorted multimap |
| C62 | error handler, `set_response`, `write_response_core` | violated (second content type); exact status, body and content types |
| C64 | `write_response_core` | step lemmas for each field that is added |
| C63 | `parse_request_line`, `decode_url` | induction over spellings of a path |
| C48 | `read_stdin` on a 4096 byte buffer (`Utils.lean`) | violated for 4096 bytes or more; exact: defined iff the input is shorter |
| C49 | `printf_hex` on a bounds-checked buffer | loop invariant over the two-byte `snprintf` steps; count violated on truncation with even size, text violated for no data; exact characterisation `C49_partial_exact` |
| C50 | `process_options` over glibc `getopt`, `get_command_id`, `main` up to the switch (`Cli.lean`) | a grammar of command lines, scan sound and complete for it; violated through C65; overrides via ownership of the configuration's blocks |
| C65 | `show_help` | violated for every name; exact set of affected command lines |
| C51 | `get_x509_entry`, `get_x509_keyvalue`, `crypto_getcert_meta`, `crypto_getcert_serial` and their use at the registrar on the pointer heap (`Names.lean`) | ownership invariant over the loop; violated by a NUL in the value; exact result otherwise |
| C52 | `os.c` helpers on bounds-checked buffers and the block heap | contracts stated independently; violated at size 0, `SIZE_MAX` and a zero-byte `realloc`; proved for every other size |
| C53 | `localtime` as an arbitrary offset function followed by a civil calendar (`Clock.lean`), then the formatting | calendar inversion for all days of years 1–9999; the text denotes `t + zone t`, so it denotes `t` iff the offset is 0 |
| C54 | `post_voucher_pledge_request` with everything below it, the network being a parameter (`Pledge.lean`) | inversion of runs (`postVoucher_inv`); violated by a run with two servers; partial when both connections present the same certificate, and only then (`C54_exact`) |
| C66 | the same and `post_sign_cert` | ownership invariant over the whole run; violated by badly padded answers (any pledge that gets that far) |
| C67 | `post_sign_cert`, `generate_sign_cert` (outcome), `create_cert_string` | inversion (`postSignCert_inv`), blocks keep their content (`Later`) |
| C68 | the same | violated; partial for a registrar that certifies the key it was sent |
| C69 | pairs of runs | violated by a replay; partial: different nonces, via determinism of decoding and reading |
| C70 | TLS client of httplib as data flow of trust anchors, OpenSSL uninterpreted | violated; exact condition, partial for systems without certificates of their own |
| C71 | TLS server contexts | violated; registrar and MASA characterised exactly |
| C72 | `httplib_start`, `registrar_start`, `masa_start` and the stop functions | violated three ways; undefined starts, results and release characterised exactly |
| C73 | the registrar's connection to the MASA | violated; non-interference of the presented chain; partial: origin of the answer |
| C74 | route tables and stub handlers | violated; exact table of answers for every request line; `C74_run`: nothing else is run there |
| C75 | `set_response`, `set_header`, `write_headers` | counting line ends over every header map |
| C76 | messages as bytes (`Wire.lean`): client text, `read_headers`, `read_content`, server, reply text, `read_response_line` | induction over lines and fields; client and server composed |
| C77 | same | every proper prefix splits into line, header or content part; induction over the chunks for chunked content |
| C78 | `read_content_chunked`, pointer before the buffer is `ub` | violated at server and client; undefined trailers characterised exactly |
| C79 | same | induction over chunks and trailer lines against RFC 9112 text |
| C80 | all functions of `crypto_ossl.c:140-1694` as acquisitions and releases of counted references, success of each call drawn from an arbitrary tape, names of new objects chosen by the allocator (`Verif/Res.lean`) | small separation logic (`ResLemmas`) with one triple per function (`ResRules*`), induction over the lists; witnesses for each flaw; undefinedness of every run that delivers lent certificates |
| C81 | `crypto_generate_rsakey`, `crypto_generate_eckey` in the same model | symbolic execution; undefinedness characterised |
| C82 | `request.c:20-581`, `load_cert_files`, `masa_requestvoucher`, `registrar_requestvoucher`, `post_voucher_request`, `registrar_est_simpleenroll`, `save_to_log` in the framework of C80 (`Verif/ResReq.lean`); which checks succeed is drawn from the tape; a voucher is one block | triples and triples up to losses (`ResReqRules*`), induction over lists of paths and over the requests a MASA serves; witnesses for each flaw |
| C83 | `main` with the commands epvr, preq, sign, vmasa, serial (brski.cpp:264-526), `output_domain_cert`, the three functions that write files; configuration, client functions and command line from the models of C26, C44, C50, C58, C66, C67 (`Verif/Main.lean`); standard output is a list of bytes, files are a map from names to contents, what a disc keeps of the bytes written is arbitrary | composition of the inversion lemmas; `Configured` describes the settings by the file; witnesses on a complete instance (`MainDemo`, `MainRuns`, `PropsMain2`, `PropsMain3`) |
| C84 | pledge, registrar and MASA connected (`Verif/Deploy.lean`): the network of the pledge is TLS (C71, C73), the bytes of HTTP (C76), the routes (C46) and the handlers (C39, C40, C59) of a registrar, whose network is the same with the MASA; `main` of C83 on top | completeness lemmas of each function (`PledgeFull`, `DeployLemmas`) composed with `honest_run` (C35) and the inversion lemmas of C83; a complete instance in `PropsDeploy2` |
| C85-C87 | `set_certificate_meta`, `crypto_generate_eccert`/`rsacert`, `crypto_sign_cert` (`Verif/X509.lean`) on certificates as contents (version, number, dates, names, extensions, key, signature); names and `crypto_getcert_meta` as in C51; `generate_sign_cert` | inversion of each step gives the structure `Carries`, which determines the contents; converse by running the steps; `Reflects` maps the opaque certificates of C59/C84 to contents |
| C88 | `crypto_sign_cert` | no check exists: a certificate of a CA without signature is signed (witness and for all certificates) |
| C89, C90 | `crypto_getrand`, `gen_rand64`, `generate_sign_cert`, with `printf_hex` of C49 | length modulo 2^32; number as closed formula of the last three results of `rand`; injectivity of the first 15 digits |
| C91, C92 | the loop over the requests of one connection, with what each request leaves unread (`Conn.lean`), refining `Wire.serve` | a simple request leaves exactly what follows it, whatever follows; induction over the requests; fields of the reply through `write_response_core`; three violating connections evaluated; what refused requests leave unread (`PropsTight.lean`) |
| C93 | `Range` fields (`Ranges.lean`): the two regular expressions, `stoll`, offsets as `size_t`, `apply_ranges`, multipart replies; refines `Routes.writeResponse` | texts of ranges read back by induction; positions as a filter over the text, shown equal to `substr`; fields through `finish` |
| C94 | pledge_utils.c:23-156 and pledge_request.cpp:34-374 in the framework of C80 and C82 (`Verif/ResPledge.lean`); contents of nonce and answers only as well or badly padded | triples for each function (`ResPledgeRules`), composed for the whole onboarding; witnesses for each flaw |
| C95 | `ini_getl`, `strtol` in base 10 and 16, the conversions `long` → `unsigned` → `int`, `std::to_string`, the `Host` field (`Verif/Ports.lean`), with the command line and overrides of C50; what `getaddrinfo` does with a number above 65535 is left open | value of decimal texts by induction; `C50_effective` gives the port of the command; witnesses evaluated |
| C96, C97 | `ThreadPool` and `Server::listen_internal` as steps of one accepting and any number of serving threads (`Verif/Pool.lean`); critical sections are one step each, wake-ups without cause included; errors by number | invariant over all runs (order, references of jobs, no lost wake-up, sleep and end of threads); measure that decreases with every step but new connections; witnesses evaluated |
| C98 | the three `crypto_sign_*cms` as one function of how the key is read (`signCmsBy` in `Verif/Crypto.lean`); `BIO_write` with its `int` length | inversion; prefix of the data in every case; a voucher with a 2 GiB nonce as witness |
| C99 | `deserialize_voucher` with the tokenizer (C16, C17) | the first token of a document ends where the document ends; if a beginning of it were accepted it would end earlier (induction over the tokenizer, `Verif/JsmnCut.lean`) |
| C100 | same | after a closing brace the tokenizer goes on as at the beginning; closed tokens stay, only the last one can get children (`Verif/JsonTail.lean`); search and members congruent; witness evaluated |
| C101 | `sign_eccms_voucher`, `sign_rsacms_voucher`, `log_trace("%s", …)` (`Verif/Sign.lean`) | case analysis, both directions (`C101_exact`); witness: memory fails at the start of serialisation |
| C102 | `log_open_file`, `log_close_file`, the setters and messages over files, streams, standard error and the mask (`LogFile.lean`) | simulation by a logger with one destination; exact for all call histories; violated: a failed open forgets the file in use, a second open leaves the first stream open |
| C103 | `log_error_exit`, `log_error_exit_proc`, `terminate` | from C102; exact: when and where the message is written; violated when quiet or below the level |
| C104 | setters called with the pointers the getters returned (`Alias.lean`: copies written as the C statements in order) | case analysis over the attributes; witnesses: a nonce, a time |
| C105 | programs of C80 and C82 as trees of steps, run in any number of threads on one memory (`Parallel.lean`; each step atomic, new names chosen freely) | every undisturbed run defined gives a weakest precondition over all choices (`wp_of_run`); invariant: each thread has a private memory, the shared one is their sum (`Inv`); what is lent cannot be released, since a dead object stays dead (`wp_dead`); schedules end (accessibility) |
| C106 | the streams of `save_to_log` in several threads (`EnrolLog.lean`): each hands its text to the file in pieces (`Cut`: any pieces, one if the text fits into the buffer), the pieces of all threads are appended in any order (`Writes`) | the pieces written and those left are a permutation of all; a text that fits is one piece; two entries longer than the buffer are torn (`C106_torn`, for every buffer size) |
| C107 | the four calls of C39, C40, C59 and C49 with configurations of which settings were removed (`DroppedMasa` …) | the first file that gives nothing has no name (`Stops`): the call is undefined; otherwise it is equal to the call with the setting; the address: the two calls agree up to the request to the MASA (`UbOr`) |
| C108 | lists of requests served by the handlers of C39, C40 and C59 on one heap, against each request on a new heap (`serveRegistrar`, `freshRegistrar`, …) | the handlers are related to themselves on two heaps (`Tied`): equal answers whatever the heaps; induction over the list |
| C109, C110 | reads that return at least one and at most the wanted number of bytes, an orderly end or an error (`Cut.lean`): lines, header fields, content handed to a receiver piece by piece, the multipart parser, server and client | content arrives in pieces that do not depend on the receiver; `Upto` relates two connections of which one continues the other: what succeeds on the first succeeds alike on the second; both directions give C109, one gives C110; for orderly ends equality with `Wire`. Whole connections (`CutConn.lean`, with what each request leaves unread): `C109_connection`, the requests of a connection agree with `Conn` by simulation, so that C91 holds for every arrival (`C109_requests`). Forms (`CutForm.lean`): the parser keeps what is left of a correct form (`Good`) piece after piece, so every correct form whose first boundary is not cut is read (`C109_form`, `C109_form_reply`) |
| C111 | connections with handlers that return or throw (`Throw.lean`): the `try` around `routing`, the exception handler, the error handler | the answer computed for every exception; a connection with handlers that throw is related request by request to the one of `Conn` with handlers that return (`AllAlike`, induction over the loop) |
| C112 | the pool of `Pool` whose threads perform the accesses of `Concurrent` (`PoolMasa.lean`) | two threads: the schedule is built for every pool of two threads or more; one thread: invariant `Unshared`, the accesses performed and those to come on the connection being served are requests one after another |
| C113 | the client of `Pledge`; `replyStatus` gives the status of the reply to each message sent | inversion of successful runs; `C113_blind` compares the runs on two networks that differ only in statuses on the same side of 400 |
| C114 | `Conn` over TLS records (`Records.lean`): a record leaves the socket when its first byte is read, `keep_alive` sees the socket only | refinement into the connections of `Conn` (so that C91 applies), and induction over the requests for the last record |
| C115 | the places that depend on `FD_SETSIZE`, the handshake loop with time (`Socket.lean`) | below 1024 the connection of C114; above, induction over the loop; which handshakes are accepted, exactly (`C115_accepted`) |
| C116 | the client: connecting, TLS session, writing in pieces, sending again (`Client.lean`); its acts are recorded as events | what one attempt does is characterised by cases; two attempts composed; `C116_link` ties it to `Tls.post`; `C116_written` says exactly when writing succeeds |
| C117 | the fields of a request prepared a second time (`Client.prepare`) | a field that is there or refused is not added again; the first copy equals `Wire.requestText` |
| C118 | acquisitions and releases among the events (`Client.lean`) | a checker of event lists (`holds`) run over the events of both attempts |
| C119, C120 | the same threads (`Pool.lean`), in executions without end (`PropsFair.lean`); fairness and the end of connections are explicit hypotheses (`Scheduled`, `ClientsEnd`) | C119: by contradiction from the invariant of C96 (a waiting client, no thread moves), induction on the number of clients before it; C120: phases of the accepting thread, then induction on the measure of C96; violations by runs that come to rest (`at_rest`) |
| C121-C123 | `create_socket`, `create_client_socket`, `wait_until_socket_is_ready` (`Verif/Connect.lean`): per address the results of `socket`, `fcntl`, `connect`, `select` with interruptions, `SO_ERROR`; events on descriptors and on the list of addresses | induction over the list of addresses: an account of descriptors (`account`), the first success (`tries_first`), the time spent (`tries_spent`, exactly: `C123_exact`) |
| C124, C125 | `create_server_socket` with `SO_REUSEPORT` among listening sockets of other programs (`Connect.lean`: `bindOk` is the rule of Linux, `overlap` between addresses is arbitrary), and a client among the same sockets | from `tries_first`; witnesses evaluated |
| C126, C127 | `SSLSocketStream::write`, `write_data`, the end of `write_response_core`, the loop over requests (`Verif/Send.lean`); each call of `select` and `SSL_write` has an arbitrary result; requests as in `Conn.lean` (`C126_requests`) | invariants of a session that is over (`Over`), induction over attempts, pieces and requests; C127 with the client of C76, C77, and with the handlers of C40 and C59 (`C127_masa`, `C127_enrol`: base64 text never looks like a reply) |
| C128 | `Server::stop`, `httplib_stop`, `registrar_stop` in a thread beside `listen_internal` and the threads of the pool (`Stop.lean`, on top of `Pool.lean`); steps that look at the server are marked | exactly which steps are undefined (`C128_exact`) from the life of server and context; for servers stopped afterwards an invariant over all interleavings (`StoppedQuietly`) `C128_refuses`: once the socket has been taken away no client is accepted any more. |
| C129-C131 | `process_and_close_socket`, `ssl_new`, `ssl_connect_or_accept_nonblocking`, `ssl_delete`, `process_server_socket_core`, `keep_alive` (`Session.lean`): events and milliseconds | C129: a checker of events (`follow`) run over the events of every connection; C130, C131: induction over waits and requests, for C130 a family of clients without bound; `C129_stops`: after a request that fails or asks to close there is no other |
| C132, C133 | `trim`, `split`, `from_hex_to_i`, `to_utf8`, `decode_url`, `parse_query_text`, `parse_header`, `stream_line_reader`, `write_format` with indices, arrays and memory that was never written (`Scan.lean`) | each equals the model without indices in `Routes.lean` and `Wire.lean`, by induction over the text with the loop state in the statement; C133: form encoding inverted, `C133_partial` is exact |
| C134 | `verify_host`, `verify_host_with_subject_alt_name`, `verify_host_with_common_name`, `check_host_name` (`HostName.lean`), `inet_pton` a parameter | exact characterisation for names, IPv4 and IPv6 addresses; soundness for proper names against RFC 2818 |
| C135, C136 | `MultipartFormDataParser` with `buf_`, `buf_spos_`, `buf_epos_`, its byte-wise copies and searches, the header lines of parts and `parse_disposition_params`, the callbacks of `Server::read_content` (`Form.lean`); the two regular expressions as prefix tests that ignore the case | refinement: buffer and positions stand for the bytes in use (`FormLemmas`), each round of the loop for a round without positions (`FormSim`), bounds for the rounds suffice; then invariants over the pieces: contents are contiguous pieces of the input; a correct form is read part by part (`FormReads`) |
| C137, C138 | `SSLSocketStream::read` with `SSL_pending`, `is_readable`, the thousand retries, and `getline` (`Reading.lean`): a session is what is left of a record and a list of events with their times | C137: the events give a list of bytes and of moments where a read is given up; each read consumes a prefix (case analysis, induction over retries); any program that reads sees a stream of `Cut`; C138: induction over retries and bytes, a family of clients without bound |
| C139 | the loop over requests with parts that arrive after a read has failed (`Pause.lean`, with the requests of `CutConn.lean`) | a request that is cut anywhere is refused or ends the connection (cases: first line, fields, content); induction over requests; witness evaluated |
| C140 | one request of `Conn.lean`, whose fields are any (`Msg.Formed`) | the number at the front of a text by induction over digits; cases of `read_content`; removal of the lengths commutes with reading the fields; witnesses evaluated, each with a second request smuggled in |
| C141 | one request of `Conn.lean`, any bytes | sizes never grow: induction over lines, chunks, trailers and the decoding of values; a family of requests without bound; `C141_late`: a line that is too long is refused only when it has been read to its end |
| C142 | `read_response_line` and what follows it (`Wire.readReply`) | line by line; exactly which interim replies are skipped (`C142_exact`), what the others do |
| C143 | `httplib_post_request` with two attempts and any pieces (`Client.post`, `Cut.readReply`) | an answer on any connection is the answer on one that ends in order (`reply_ended`); sizes never grow |
| C144 | `save_to_log` within `registrar_est_simpleenroll` (`Server.lean`), requests one after the other | the log is exactly the entries of the enrolments (`C144_recorded`); entries are read back field by field; the serial number that forges two given entries |
| C145 | the messages of the handlers that are not implemented (`LogStub.lean`) written by `log_msg` (`Log.lean`) | count of newlines exactly; any line without NUL can be written by a client; nothing with a quiet log |
| C146 | the four fields `Server::process_request` adds, with the functions that find the addresses (`Addr.lean`), between the fields of the header and those of the trailer | the fields of each name of a sorted list are followed through every insertion (as for C47); exact value for each of the four names; two clients that cannot be told apart; all other names as in `Wire` (`C146_others`), which is why the rest of the model leaves the four out; `C146_told` for every kind of address |
| C147 | `get_certificate_store`, `crypto_verify_cms`, `crypto_verify_cert` (`Crypto.lean`, where the store has certificates and revocation lists), `load_cert_files` (`Config.lean`) | C37's exact condition with and without the revocation lists; the documented behaviour of OpenSSL without `X509_V_FLAG_CRL_CHECK` is the hypothesis `NoCrlCheck`; C43 for the configuration |
| C148 | `sign_masa_pledge_voucher` (`Request.lean`), `masa_requestvoucher` (`Server.lean`) | what is signed (C29) is read back by everybody (`signed_read`), then attribute by attribute |
| C149 | `voucher_req_cb`, `masa_requestvoucher` (`Server.lean`) | the answer is an issued voucher (C40), read back by everybody (`answered_read`); the request determines its parts (`consistent_unique`) |
| C150 | `sign_masa_pledge_voucher` (`Request.lean`) | the same; `C150_blind` from `C31_blind` |
| C151 | `registrar_requestvoucher` (`Server.lean`) | from `C39_partial` and C27 |
| C152 | `sign_masa_pledge_voucher` (`Request.lean`) | issued vouchers read back (`issued_read`); `C152_blind` from `C31_blind` |
| C55 | `log_msg`, `log_check_level`, `print_to`, `time_to_str` and the mutex (`Log.lean`); threads interleaved byte by byte | invariant `Snap` over all schedules: finished messages, then a prefix of the owner's message; release and progress; time stamp fits iff before year 10000 |
| C56 | `save_to_log`, enrolments one after another | violated by a newline in a serial number; partial by induction over histories |
| C39 | `registrar_requestvoucher`, `post_voucher_request` on the block heap (`Server.lean`); the MASA is an arbitrary function from body to answer | inversion of the handler, C27; violated for MASA status ≥ 400; partial: all answers characterised |
| C40 | `masa_requestvoucher`, `voucher_req_cb` on the block heap | inversion and C29; completeness `C40_issued`, `C40_reply` |
| C41 | the three handlers that read a body, with ownership of every block (`Owns`, `Stale` in `ServerLemmas.lean`) | violated by the body `A`; exact: safe iff the body is not badly padded (`BadPadding`) |
| C42 | interleavings of the accesses to the shared `MasaContext.ldevid_ca_cert` (`Concurrent.lean`; each access atomic, loads may fail) | violated by two overlapping requests; exact: a complete schedule is defined iff it serves the requests one after another (counting releases against loads); histories of the complete handler; a failing load clears the shared pointer |
| C59 | `registrar_est_simpleenroll`, `crypto_sign_cert` over uninterpreted X509 operations | inversion and completeness |
| C60 | same | violated: no client certificate needed; the answer is independent of the client |
| C61 | registrar handler whose HTTP client runs the MASA handler | composition of C39, C40 and C01 |

## 3. Trusted base

* The Lean 4.33.0 kernel; the axioms reported by `#print axioms` (section 5).
* The hand translation of C to Lean, as cited in comments.
* Two libraries that the build downloads, jsmn v1.1.0 and minIni, were not available: `Verif/Jsmn.lean` and
  `Verif/Ini.lean` are written from general knowledge of them and have never been compared with their source.
  An error there would affect every claim whose statement reaches these models (found by following the
  constants of the theorems' statements).  jsmn: C11, C14-C20, C27-C36, C39-C42, C54, C61, C66-C70, C73, C83, C84, C87, C98-C100.
  minIni: C44, C45, C50, C58, C83, C84, C95.  The violations recorded for these claims in section 4 carry the same reservation.
* Library semantics modelled by hand from their documented behaviour, likewise not compared with their source: glibc `strptime`/`strftime`
  for one format, glibc `getopt` (`POSIXLY_CORRECT` unset) and `strtol`, `localtime` as an offset (in whole seconds, chosen freely per instant) and the Gregorian calendar, `strncmp`/`memcpy`/`snprintf`,
  `std::regex` and `std::multimap` as used by cpp-httplib (whose own functions are modelled from the bundled
  header; `Range`/`Expect` headers only in `Ranges.lean` and `Conn.lean`, which agree with the rest without them: `answer_none`,
  `serveNext_reply`; no compression), OpenSSL (uninterpreted).
* `SSL_get_error` reports the result of the call before it. OpenSSL promises this only when the error queue of the thread was empty before that call, which httplib does not ensure for `SSL_read` and `SSL_write` (`SSL_accept` and `SSL_connect` empty it); errors left by the handlers could make a wait look like a failure.
* `SSL_write` without partial writes sends everything or fails, and after it asked to be repeated it refuses other data (`bad write retry`); the buffers of different parts of replies lie at different addresses; C126 and C127 use these.
* `select` on Linux stores the remaining time in its argument, and `bind` follows the rule of Linux for `SO_REUSEPORT` (both sockets have it and belong to one user); C123-C125 use these.
* Lifetimes of OpenSSL objects are tracked only in `Verif/Res.lean`, `Verif/ResReq.lean` and `Verif/ResPledge.lean` (C80-C82, C94) and, for the client, in `Verif/Client.lean` (C118), from OpenSSL's naming convention and manual pages; its
  source was not at hand.  All other claims that involve the cryptographic layer (e.g. C29, C35, C38, C40) take its functions as
  defined and `sk_X509_push` as successful; where C80 records undefined behaviour (`exatract_cms_certs`), they speak about runs that
  survive it.
* In C105 the steps of different threads are atomic and sequentially consistent; the allocator and the reference counts of OpenSSL are
  taken to be safe for threads; a name is never given to two objects, so that the use of a released object is undefined also when the
  allocator has handed its address out again.
* A connection is the list of all bytes that will arrive, followed by an orderly close; no time-outs (`Cut.lean` has the pieces and
  errors, and justifies this view by C109); one request per connection except in `Conn.lean`; the multipart parser of cpp-httplib is uninterpreted in `Wire` (`Wire.Multipart`; every parser is allowed), in `Cut` only
  what it makes of the lines of header fields inside a form; `Form` has all of it (C135).
* In `Reading` an interrupted `select` just takes longer, records are those that OpenSSL hands over, and an end or an error is final; in `Pause` nothing is read
  after a read that failed within a request, and a later part arrives while `keep_alive` waits.
* Mutation testing: `seeded/LOG.jsonl` lists deliberately wrong versions of the model's definitions, the
  theorems that failed, and for survivors the theorems that were strengthened afterwards.
* Not modelled: TLS beyond the choice of trust anchors (`Verif/Tls.lean`), sockets, file system contents, compiler behaviour, integer
  widths beyond those stated (LP64, `size_t` 64 bits).

## 4. Disagreements found between code and properties

Each entry is a proved negation (`…_violated`) unless marked *observation*.

* **C05** Base64 text with three or more (implied) padding characters, e.g. `"A"`: the output block is
  freed but the caller's pointer keeps its value (dangling).  Callers free it again.
* **C57** `"A=BC"` is accepted; everything after a complete padding group (`"AA==BBBB"`) is ignored.
* **C06** `"true\0"` with length 5 is accepted.  *Observation*: `tolower` on bytes ≥ 0x80 of a signed
  `char` is undefined in ISO C (`C06_iso_ub_witness`).
* **C08** `2022-02-31T…` and a time followed by arbitrary text are accepted.
* **C10** A failing setter loses the old value on memory exhaustion and for `{NULL, n>0}` arrays.
* **C12** Overwriting an attribute leaks its block (also for repeated JSON keys).
* **C15** A quote in the serial number is not escaped: `x","nonce":"AAAA` adds a nonce.  An empty byte
  string is written as `""`, which the reader refuses.
* **C16** `init_voucher` is not checked in `deserialize_voucher`: NULL dereference on exhaustion.
* **C17** Members inside nested values are read in place of later top level members; an unknown key whose
  turn is skipped is accepted.  *Observation*: JSON value types are not checked.
* **C18** Any prefix of the root name (also the empty one), and a root name in value position, matches.
* **C24** If the copy of the array fails, the new element is unlinked through its NULL links.
* **C28** Every authentic pledge request without a serial number makes the registrar call
  `strcmp(NULL, …)` (`C28_always_undefined`).
* **C30** The MASA copies the nonce of the registrar's outer request; `C30_exact` says so for every issued voucher and every reader.
* **C31** The MASA does not look at the assertion or the proximity certificate; `C31_blind`: two requests with the same serial number, outer nonce and signers get the same answer.
* **C33** With a NULL domain store (the only way the pledge application calls it) every decodable
  registrar certificate is accepted, whatever certificate is pinned (`C33_any_registrar`); with a store
  the pinned certificate is only an untrusted intermediate.
* **C34** `expires-on` is never consulted by the pledge.
* **C36** A bare JSON value may contain quotes, and `serialize_escapestr` does not escape: a voucher issued
  for the serial number `S1""nonce""CQ==` with nonce 1 reads as serial number `S1` with nonce 9 at the
  pledge, which accepts it although no voucher was ever issued for this pair.
* **C37** A NULL trust store disables the check of the signer; an empty path in the configuration gives
  a NULL store.
* **C43** A failing `load_cert_files` releases the list but leaves the caller's pointer set; the callers
  (`voucher_pledge_request_to_array`, `verify_masa_pledge_request`, `masa_requestvoucher`) pass it to
  `free_array_list` again.
* **C44** Every occurrence of a repeated key yields the *first* value (`ini_gets` searches by name), so
  only the first of several trust anchors is ever used.  *Observation*: names are compared case-insensitively
  for the value but exactly for the occurrence, and an entry with an empty name ends the enumeration.
* **C45** When memory runs out inside `load_config_value_list` the list is released there and again by
  `free_*_config_content`.
* **C39** `post_voucher_request` treats only a failed connection as an error: for a MASA status of 400 or more
  the response buffer stays empty and the registrar answers 200 with an empty body.
* **C41** `struct BinaryArray.length` is `size_t`, so the tests `length < 0` after decoding a request body
  (masa_api.cpp:89, registrar_api.cpp:196, pledge_request.cpp:180) are never true: a failed decode goes
  unnoticed, the length becomes `SIZE_MAX`, and after bad padding (body `A`) the dangling pointer of C05 is
  freed.  A remote client can so crash MASA and registrar.  `registrar_est_simpleenroll` notices the failure but
  frees the pointer as well.  *Observation*: `verify_cms` passes the length as `long`, so `SIZE_MAX` is -1 there
  and OpenSSL refuses it; that is the only reason why the other bodies are harmless.
* **C42** Every request at the MASA stores its certificate in the context that all
  threads share.  If two requests overlap, one pins the certificate of the other and the block is
  released twice (`C42_violated`, `C42_violated_certificate`).  If the certificate of one request cannot be read, its load clears the
  pointer another request has just stored: the callback of that one fails although its own was read, and a block is never released
  (`C42_violated_missing`).
* **C46** `httplib_register_routes` hands the paths to httplib as regular expressions: `.` in `/.well-known` matches
  any character but a line end, so `/Xwell-known/brski/requestvoucher` reaches the handler.  httplib also runs the GET
  handlers for HEAD.
* **C47** `get_request_header` merges by exact name, httplib's multimap orders without regard to case: `A` and `a` stay two
  keys.  httplib percent-decodes header values, so `%41` arrives as `A` (`C47_violated_value`).  *Observations*: a
  header `REMOTE_ADDR` sent by the client comes before the one httplib adds; `compare_case_ignore` calls `tolower` with
  possibly negative `char` values.
* **C62** After an error httplib's error handler calls `set_content`, which *adds* a `Content-Type`: a refused voucher
  request is answered with `application/voucher-cms+json` followed by `text/plain` for the body `Router error`.
  *Observation*: the MASA sends its vouchers as `text/plain`; a `Range` header cuts a body while the status stays 200
  (C93).
* **C63** *Observation*: for a target that starts with `?` the query is taken for the path (`C63_empty_path`).
* **C48** The bound is only tested after the next byte was written, and the terminator comes after that: 4096 or more bytes of standard input write past the
  buffer (`C48_violated_overrun`), so the refusal is never reached in a defined way.
* **C49** With an even size and more data than fits the last byte is cut after one digit and that digit is not counted
  (the only caller gets 14 for a text of 15 characters); without data the buffer keeps its old text.
* **C52** `sys_strlcpy` with size 0 writes `dest[-1]`; `sys_strndup` with `SIZE_MAX` allocates 0 bytes and copies;
  `sys_realloc_array` with a zero product frees the block and returns NULL, which callers read as failure.
* **C53** `serialize_localtime` formats local time with the suffix `Z`: in every zone with a non-zero offset the created-on
  text denotes another instant.  *Observation*: `localtime` returns a static buffer that all threads share.
* **C55** *Observations*: from year 10000 on the time stamp overruns its 25 bytes (`C55_stamp_overrun`); a level above 4 reads
  past the array of names (`C55_level_overrun`); without a lock function messages can be interleaved (`C55_lock_needed`;
  `main` sets it before anything is logged); a message that ignores the level is still suppressed when logging is quiet.
* **C56** The serial number is written to the log unescaped: a newline forges log lines.
* **C60** `registrar_est_simpleenroll` has no authorisation at all (`/* Here check the idevid */` is empty); the
  TLS server accepts any client certificate when no client CA is configured.
* **C51** The value of a name part is handled as a C string: a serial number `"P1\0x"` in a certificate (possible in a
  UTF8String) is taken for `"P1"` (`C51_violated_confusion`).  *Observations*: certificate serial numbers of more than
  64 bits are logged as 0 (`C51_number`); `CrypoCertMeta` and `save_to_log` leak the first list when the second cannot be
  allocated.
* **C50**, **C65** `show_help` copies the program's name into a vector without its NUL and passes it to `basename`: every
  path that prints the help is undefined (`-h`, no command, unknown command).  *Observations*: `-p abc` is the same as no
  port, a negative port wraps around; operands after the first are ignored.
* **C54** The pledge connects twice without verifying the server: the certificate in its request is that of the first
  connection, the voucher is checked against that of the second, and nothing compares the two.
* **C66** `post_voucher_pledge_request` compares a `size_t` with 0 after decoding the answer (pledge_request.cpp:178-184) and
  releases the dangling pointer of C05: anybody who answers the (unverified) second connection with `====` corrupts the
  pledge's memory (`C66_bad_answer`).  `post_sign_cert` notices the failure but releases the pointer too.  When the nonce
  cannot be decoded in `verify_masa_pledge_request` it is released at 55 and again at 86 (`C66_nonce_twice`).
* **C68** The answer to an enrolment is returned as the certificate whatever it is.
* **C69** The nonce is read from the configuration, so every voucher stays acceptable as long as the configuration does.
  *Observations*: `generate_sign_cert` compares `size_t` values with 0 (272-284), so a failed key generation goes
  unnoticed until the encoder refuses the length; the serial number of the certificate comes from `rand()` seeded with the
  time in seconds.
* **C70** `httplib_post_request_ca` puts the pinned certificate into the store, but `load_certs` then adds the certificates
  the system trusts (httplib.h:9166-9197), and host names are not verified: any server with a certificate of a public
  authority can answer the enrolment.  If the PEM text cannot be read only the system's certificates remain.
* **C71** Without `client_ca_cert_path` (always at the registrar, registrar_server.cpp:54-73) the patched `SSLServer` installs a
  callback that accepts every certificate.  Some certificate is always demanded, so the handlers never see a client
  without one over TLS (cf. C60).
* **C72** `SSLServer`: when certificate or key cannot be read, `ctx_` is NULL and `SSL_CTX_set_verify(NULL, …)` follows if no
  client CA is configured.  `httplib_start`: the catch block calls `httplib_stop(srv_ctx)` with the address of the pointer
  instead of the pointer; `listen`'s result is ignored, so an occupied port is reported as success.  *Observation*: `main`
  leaves without `registrar_stop`/`masa_stop` after a failed start (brski.cpp:505-521), the context is leaked.
* **C73** `post_voucher_request` passes `false` for the verification of the MASA.  *Observation*: with `true` the
  certificate of the server would not be recorded (httplib.h:9240-9241) and `crypto_copycert` would be given NULL.
* **C74** `voucher_status`, `requestauditlog` and `enrollstatus` are stubs that answer 200 with their own name, so a pledge
  that reports a failed enrolment is told that it was recorded.  The EST stubs of the MASA answer 503.
* **C78** `read_content_chunked` takes the end of a trailer line two bytes before its end without checking the length
  (httplib.h:4185); for a line of one byte the pointer lies before the buffer.  Forming it is undefined in C++.  In
  practice `parse_header` compares it with the beginning first and ignores the line, so no effect is expected on the
  usual machines.  *Observations*: trailer lines that end in a bare line feed lose their last character; the client
  takes a 204 reply as empty whatever follows.
* **C80** `crypto_generate_eccert`/`rsacert`: when `X509_set_pubkey` fails neither certificate nor key is released (1018-1022,
  1082-1086); `*cert = NULL` precedes the test of `cert` (981,993).  `get_certificate_stack` ignores the result of
  `sk_X509_push` (1206): the certificate is lost and silently missing.  `get_certificate_store`: a certificate or CRL that cannot
  be added to the store or to the list is lost (1264-1293).  `exatract_cms_certs` releases the certificates of
  `CMS_get0_signers` (1573-1606), which by its name only lends them; they are released again with the message, so every
  `crypto_verify_cms` that delivers `out_certs` (the MASA on every request, request.c:268) is undefined under that reading
  (`C80_signers`; a count that drops below zero usually goes unnoticed).  When the extraction fails `*data` stays allocated and
  `verify_cms_voucher` loses it.  *Observation*: `CMS_get0_signers` returning NULL for lack of memory is taken as success
  without certificates.
* **C81** the results of `EVP_PKEY_keygen` and others are tested with `!`, but the manual reports failure by "0 or a negative
  value"; then the key stays NULL and `i2d_PrivateKey(NULL)` follows.
* **C82** `sign_masa_pledge_voucher` returns without releasing `registrar_certs` when no voucher can be read (request.c:270-273), so a
  client that signs something other than a voucher costs the MASA memory with every request.  `verify_masa_pledge_voucher` loses
  `cert_copy` when the list of certificates cannot be made or extended (547-553).  In `masa_requestvoucher` the pointer left by a failed
  `load_cert_files` (C43) and the one left by a badly padded body (C05) are released again; so is `context->ldevid_ca_cert` of an
  earlier request if the expiry time cannot be read (82-84; the configured text does not change while serving, so this does not happen).
  The registrar is safe against the former (243-247) and not against the latter (192, 428).  `std::malloc` is not checked (191).
  The constructor of `CrypoCertMeta` and `save_to_log` lose one list when the other cannot be made (153-158, 38-41, 56-61).
* **C83** output names are cut to 254 bytes (`snprintf(outf, 255, …)`, brski.cpp:254,337,392,397): with a name of 254 and more characters
  `sign` writes certificate and key to the same file; only the key is left and success is reported (`C83_long_name`).
  `certbuf_to_file` and the others open the file, and so empty it, before they convert (crypto_ossl.c:153-161,175-190,204-219): a command that
  fails destroys the old file (`C83_failed_file`, `C83_violated_failure`).  The results of `fclose` and `BIO_free` are ignored: a full disc is
  reported as success (`C83_full_disk`).  `vmasa` compares a `size_t` with 0 to detect texts that cannot be decoded (brski.cpp:431-436) and
  never releases the decoded voucher; the other commands lose their results when the file cannot be written.  *Observations*: the file with the
  private key is created with the default permissions; the names of list settings are compared exactly, those of other settings without
  regard to case (C44, C58).
* **C86** `X509_NAME_add_entry_by_txt` is called with `MBSTRING_ASC` (crypto_ossl.c:843), which makes a Latin-1 character of each byte, while
  `crypto_getcert_meta` reads UTF-8: every name outside ASCII is changed by one round trip, and grows with each further one.
* **C88** `crypto_sign_cert` (1106-1186) signs every certificate that parses: the signature on the submitted certificate is not looked at, so
  possession of the key is not proved (RFC 7030 section 3.4 wants it), and `CA:TRUE`, serial number, validity and names are taken over
  from the request, so whoever may enrol can obtain a certificate of a subordinate CA (`C88_violated_ca`).
* **C89** `crypto_getrand` passes a `size_t` as `int` (1709): a multiple of 2^32 fills nothing and succeeds.  Callers pass 8.
* **C90** `gen_rand64` seeds `rand` with the second (pledge_request.cpp:212-221), so all pledges that enrol in the same second submit the same
  serial number, which the CA takes over (RFC 5280 wants unique numbers per CA).  `printf_hex` is given 16 bytes for 16 digits and the NUL
  (238-243), so the last digit of the serial number in the name is lost.
* **C91** `Server::routing` reads content only for POST, PUT, PATCH, DELETE and PRI (httplib.h:6789-6830): the content of a GET request stays on
  the connection and is run as the next request (`C91_violated`).  The same happens to content that is refused for its coding with 415, which
  is not read either (`C91_violated_coding`), to the content behind a `Range` field that is refused with 416
  (`C91_violated_range`; unknown units should be ignored), and behind a request line that is refused with 400.  A POST request without `Content-Length`
  has no content (RFC 9112 section 6.3), but the server reads to the end of the connection, so the following requests become its content
  (`C91_violated_swallowed`).  Behind a proxy that shares connections this is request smuggling.
* **C92** the end of the connection after a request of version 1.0 is not announced (7028-7035 against 6363-6371), the reply even says
  `Keep-Alive`; `Connection: close` in a trailer is looked up after the decision (`C92_violated_late`).  *Observations*: `Keep-Alive: max=5`
  is sent in every reply although fewer requests are left; `keep_alive` waits for the socket to become readable (3091-3110), so a request
  that arrived in the TLS record of its predecessor is not seen until more data comes.
* **C93** `Server::apply_ranges` cuts every answer, also of POST requests and of errors, but the handlers have set the status, so 206 is never
  sent (7118-7121): whoever sends `Range: bytes=0-3` gets four bytes of a voucher with status 200.  For several ranges
  `make_multipart_ranges_data` uses `content_length_`, which is 0 for answers set as text (5094-5099): `0-` and `-3` give empty parts,
  `1-` gives the rest through a `size_t` that wraps around, and a `Range` field of 8 kB repeats the answer some 2700 times.
  Ranges read before a bad one are applied to the text of the error 416.
* **C94** (besides C43, C05) the nonce made from the configuration is released twice when the voucher request cannot be filled
  (pledge_request.cpp:55,86; `C94_nonce`); `check_pledge_voucher`'s copy of the pinned certificate is lost when no list can be made
  (request.c:547-553, `C94_leak`).  A failed key generation that is taken for success (C81) ends the onboarding without harm (`C94_both`).
* **C95** no text is refused as port (config.c:167,338, brski.cpp:162): a word, an empty entry or no entry is 0, and a server on port 0 gets any
  free port and starts (`C95_word`, `C95_unnamed`); numbers count modulo 2^32, so 4294967739 is 443 (`C95_digits`, `C95_other`), and `-p 0` or
  `-p https` is ignored; numbers from 65536 to 2^31-1 and negative ones are handed to `getaddrinfo` as they are.  *Observation*: the `Host` field
  of an IPv6 address on port 443 lacks its brackets (httplib.h:7631-7632).
* **C96** when a thread other than the first cannot be started or a job cannot be stored, `ThreadPool` is destroyed with its threads running: mutex and condition
  go first (undefined), then `std::terminate`; the `catch (...)` of `httplib_start` is not reached.  Exceptions outside the handlers (memory) leave
  the thread and end the server with all connections.
* **C97** `listen_internal` goes on after EMFILE, EINTR and EAGAIN only (httplib.h:6705-6719): ECONNABORTED, ENFILE, ENOMEM or a pending error of the
  network ends the server for good.  `httplib_start` ignores the result (C72), so the command exits with success.
* **C98** `crypto_sign_*cms` hand a `size_t` length to `BIO_write`, which takes an `int` (crypto_ossl.c:1370): of data with a length from 2^31 to
  2^32 - 1 nothing is signed (`BIO_write` returns 0 for a negative length, and only results below 0 are taken for errors), and of 2^32 + n bytes
  the first n, as a success.
* **C100** a colon after a document sets jsmn's parent to the last token; if that is the empty voucher object,
  `{"ietf-voucher:voucher":{}}:"nonce":"AAAA"` gives a voucher with a nonce.  Other text after a document is ignored or refused.
* **C101** `sign_eccms_voucher` passes the serialised text to `log_trace("%s", …)` before checking it for NULL (voucher.c:896-897); undefined when memory
  fails (glibc prints `(null)`).
* **C102** `log_open_file` assigns `L.logfp` before it looks at the result (log.c:143-149): when the new file cannot be opened messages no
  longer go to the file that was open, which stays open for ever; neither is the old file closed when the new one is opened.  `main` opens one file
  only.  *Observation*: `log_set_udata` is declared (log.h) and never defined.
* **C103** `log_msg` tests `L.quiet` again after `log_check_level` (log.c:238), so the parameter `ignore_level` does not help against quiet
  and `log_error_exit_proc` ends the process without a word; `log_error_exit` does not pass `ignore_level`, so it is silent above its level too.
* **C104** `copy_binary_array` sets `dst->length = 0` before it reads `src->length` (array.c:111-113): with `dst == src`, which is what
  `set_attr_array_voucher(v, ATTR_NONCE, get_attr_array_voucher(v, ATTR_NONCE))` amounts to, the attribute is emptied, the old block lost and success
  reported (`C104_violated`, `C104_lost`).  `set_attr_time_voucher` copies a structure onto itself with `memcpy`.
* **C17** (second violation) escapes in JSON strings are kept as written (`C17_violated_escape`).
* *Observations on C58*: docs/usage.md lists `ldevidCAKeyPath` for the MASA, which no code reads, and leaves out the
  registrar's `tlsCAKeyPath`, without which enrolment fails.  *On C56*: when the log cannot be opened or a certificate
  cannot be read, the enrolment succeeds and nothing is recorded (`C56_unlogged_issued`).
* *Observations without a property of their own*: `createdOn`/`expiresOn` are silently cut to 21 bytes; the C library's weekday for January and February of
  year 0; `dl_list_len` counts in an `int`; `memcmp(NULL, NULL, 0)` in `compare_binary_array` is undefined
  in ISO C (taken as defined); `sign_pledge_voucher_request` copies from a NULL `created_on`;
  an empty registrar TLS certificate equals an absent proximity certificate (C27 states equality of
  content).
* **C106** Entries of the enrolment log that do not fit into the buffer of the stream are torn when two enrolments overlap: no lock is
  held, and the serial number of the client's certificate has no bound.  *Observation*: entries are bytes of certificates; C56 has the
  case of a serial number with a line end.
* **C107** `file_to_x509buf` and `file_to_keybuf` hand a NULL name to `fopen` (undefined in ISO C; on Linux glibc reports EFAULT), and
  `post_voucher_request` makes a `std::string` of the NULL address of the MASA or key path (libstdc++ throws an exception, which the HTTP library turns into a
  505 answer).  An empty value in the configuration file is stored as NULL, so both can happen.  None of it is noticed when the
  configuration is loaded.
* **C109** The parser for multipart content erases the buffer up to the first boundary, and all of it when the boundary is not there: when
  the first piece ends within the boundary, the rest is never recognised and a correct form is refused (`form_cut`).  What is refused
  depends on the network.  The length of header lines inside the form is checked only when the first of them is looked at.
* **C110** `read_content_without_length` takes an error for the end: a reply or request without `Content-Length` and not in chunks that
  was cut off on its way, or whose sender paused for longer than the time limit, is handled as if it were complete (`reply_cut`,
  `request_cut`).  TLS protects against this, but the result of the read is not looked at.  Both programs send a length themselves, so
  other implementations are affected.
* **C111** The exception handler sets status 505, which is `HTTP Version Not Supported` (RFC 9110 section 15.6.6), not a general error of
  the server (500); the text of the exception is sent to the client; the content type is announced twice, since the error handler
  adds another one.
* **C112** C42 happens in operation: the pool has at least eight threads on every machine, and two connections suffice.  A pool of one
  thread (`CPPHTTPLIB_THREAD_POOL_COUNT`) would do no harm.
* **C113** The pledge never looks at the status of the first answer and only compares the others with 400 (pledge_request.cpp:122,160,349): a
  body sent with 202 ("come back later", RFC 7030 section 4.2.3) is stored as the certificate if it is base64, and a voucher sent with a
  redirection is judged.  The voucher is signed, so the latter does no harm; the certificate is not examined at all.
* **C114** `keep_alive` waits for the socket to become readable although OpenSSL may hold the next request already (httplib.h:3095; only
  `SSLSocketStream::read` asks `SSL_pending`).  A client that sends several requests at once gets replies up to the last one that begins before
  or with the last record; then the connection is closed after five seconds.  *Note on C91*: for the same reason a request hidden in the
  content of another one runs only if it begins a record (or a further record follows), which the sender can arrange.
* **C115** Built without `CPPHTTPLIB_USE_POLL`, the server answers every request on a descriptor from 1024 on with 500, and the content of the
  request is taken for another request.  During the handshake `select_read` reports readiness at once, so that a silent client makes a
  thread spin for ever; eight such clients stop the server.  This needs a limit of open files above 1024 (as in many containers).
* **C116** `ClientImpl::send` calls `send_` a second time when `SSL_peek` finds that the server has closed the session after the request was
  written (httplib.h:7327-7335,7859-7870).  The request, a POST, may have been processed by then.  The second connection is a new one, so that
  it may lead to another server; without verification of the server (pledge: voucher requests, registrar: request to the MASA) nothing ties the
  two together.  Reply and certificate do belong together.  The servers of this project send `close_notify` only after a reply
  (httplib.h:8996), so they do not trigger it.
* **C117** The second copy of a request without body (the first voucher request of the pledge) has two fields `Content-Length: 0`, since
  `write_request` adds the field without looking (httplib.h:7666-7669).
* **C118** `initialize_ssl` overwrites `server_cert_` without releasing the certificate of the first connection (httplib.h:9236-9237).
  *Note on C82 and C94*: there the client appears as a call that gives a copy of the certificate; what it loses itself is recorded here.
* **C119** the pool has eight threads on machines with up to nine cores (httplib.h:97-102) and each keeps its thread for the whole connection. Eight clients that hold their
  connections keep all others waiting. Timeouts limit each wait for bytes, not the connection: a request body has no limit of length by default.
* **C120** `listen` returns after all threads are joined (httplib.h:699-701), so a client that holds its connection keeps a stopped server from returning.
* **C122** `wait_until_socket_is_ready` gives up at once on descriptors from 1024 on (httplib.h:2989-2993), so a registrar with that many connections cannot reach the MASA.
* **C123** the limit of 300 s (httplib.h:25-27) holds for each address in turn (3430-3431).
* **C124** `default_socket_options` sets `SO_REUSEPORT` (httplib.h:1870-1872), so a second server of the same user, such as a MASA with the port of the registrar, starts without an
  error, and the system distributes the connections over both. Programs of other users are kept out.
* **C125** `create_socket` tries the next address when `bind` fails (httplib.h:3298-3303) and the server then listens there only; clients of the name try the first address first.
* **C126** `write_response_core` ignores the result of writing the head (httplib.h:6407). When the socket is not writable for five seconds and then is again, the body is sent without head; for a
  reply to HEAD, which has no body, the connection goes on and the reply to the next request arrives in the place of the lost one.
* **C127** With the same cause a body that is itself a reply is taken for the reply. The registrar relays the body of the MASA's reply as it is (registrar_api.cpp:295-304).
* **C128** `httplib_stop` deletes the server right after `stop` has closed the socket (httplib_wrapper.cpp:194-195), and `registrar_stop` the context (registrar_server.cpp:78). The listening thread
  wakes up, reads `svr_sock_`, waits for the threads of the pool, which use server and context, and writes `is_running_` (httplib.h:6684,6689,6713): all of these after the deletion. As
  `registrar_start` does not return while the server runs, there is no other way to stop one. Besides, after a fatal error of `accept` the descriptor is closed at 6714 and again by `stop`,
  which still finds `is_running_` and the old number. The program `brski` calls `registrar_stop` only after `listen` has returned.
* **C130** `ssl_connect_or_accept_nonblocking` (httplib.h:8706-8733) waits five seconds each time; a client that sends a byte every four seconds keeps a thread of the pool, and eight of them
  the server (C119).
* **C133** `parse_query_text` (httplib.h:4560-4583) keeps the texts of the fields it has seen and drops repetitions: `a=1&a=1` is one field. Not encoded, a second `=` loses
  what is between the two (`C133_equals`). The handlers of brski do not look at these fields.
* **C134** `verify_host_with_subject_alt_name` (httplib.h:9356-9360) compares an address in the certificate with both `addr6` and `addr`, in the length of the one that was
  set. For an IPv4 host the other is zero, so a certificate for `::1` or `0.0.0.0` is accepted for every IPv4 host, and only the first four bytes count. For an IPv6 host the other
  has four bytes and sixteen are compared. The common name counts even if there are host names (9313-9315), and `f*.com` is not accepted for `foo.com` (9416-9417). brski
  turns the check off (httplib_wrapper.cpp:249,275).
* **C136** `parse_disposition_params` (httplib.h:4598-4622) splits at `;` and `=` also inside quotes: the name `a=b` is received as `b"`, exactly what follows the last `=`
  (`C136_equals`), and the name `a; filename=c` as `"a` with the file name `c"`. After the closing boundary the parser stays in the state behind a boundary (4820-4826): a blank line
  that arrives in a later piece begins a part without name, and the form still counts as complete. The handlers of brski do not look at parts; but a form refused is
  answered with status 400.
* **C138** `SSLSocketStream::read` (httplib.h:8799-8819) tries again a thousand times, each time with another wait of five seconds: messages of TLS without data keep one read
  busy for almost an hour and a half. `getline` (2724-2750) has no limit of its own: a byte every five seconds keeps a thread of the pool for as long as the client likes.
* **C139** A read that fails within the content is answered with status 400 (httplib.h:6816,7123-7128) but the connection stays open (3112-3132). A client that pauses more than five
  seconds within its content has the rest of its content read as further requests: content chosen by someone else can then make requests in the name of the client.
* **C140** `get_header_value_u64` (httplib.h:1812-1822) takes the first `Content-Length` and of it the number at the front: `+3 and more` is 3, `-1` is 2^64-1, a word is 0, and a second
  length is not looked at. `is_chunked_transfer_encoding` (4200-4203) compares with exactly `chunked`; any other coding is ignored. Behind a proxy that reads these fields otherwise
  a client can hide requests in its content. A DELETE request without length has no content even if it is chunked (6571).
* **C141** `CPPHTTPLIB_PAYLOAD_MAX_LENGTH` (httplib.h:78) is the largest number, and `read_headers` (4018-4063) does not count lines: eight clients can make a server keep as much as they
  send.
* **C142** `read_response_line` (httplib.h:7312-7324) skips 100 only, and of it just one line after the status line. `103 Early Hints` (or 102) is taken for the reply, and the reply itself for its
  content, with a status below 400 that the callers take for success (C113); after `100 Continue` with a field the request fails. A server of this project sends 100 without fields only
  (httplib.h:7058-7064), and the clients of this project never ask for it, so this concerns other servers (proxies, other registrars).
* **C143** the client reads content with the largest `size_t` as limit (httplib.h:7927): whoever answers, in case of the pledge before it has verified anything, decides how much is kept. A status
  line has no limit either (7285-7291), and it is matched with `std::regex`, whose recursion over the line is outside of the model.
* **C144** `save_to_log` (registrar_api.cpp:76-78) puts serial numbers between quotes without escaping quotes in them. The serial number is that of the certificate the client shows,
  which the registrar does not verify (C60), so anybody can leave entries for enrolments of other devices. A serial number `NULL` looks like none at all.
* **C145** Nine handlers of the MASA's API and three of the registrar's log the body of the request with `log_trace("%s", request_body.c_str())` (e.g. registrar_api.cpp:315, masa_api.cpp:194) before anything
  is checked. With `-d` a client writes any line it likes, such as `Pledge cert serial number: …`. `C55` says that a message is one line for texts without newline only.
* **C146** `process_request` (httplib.h:7038-7044) adds the addresses with `set_header`, which does not replace what the client has sent under these names (5609-5614), and `get_request_header`
  (httplib_wrapper.cpp:25-35) joins them: a field `REMOTE_ADDR: 127.0.0.1` makes it `127.0.0.1, 10.0.0.9`, the same field in a trailer `10.0.0.9, 127.0.0.1`. The handlers of brski do not look at
  these fields.
* **C147** `get_certificate_store` (crypto_ossl.c:1230-1297) adds revocation lists to the store but never sets `X509_V_FLAG_CRL_CHECK`, without which OpenSSL does not look at them; and
  `load_cert_files` (config.c:700) gives every element the flag of a certificate, so that no configuration contains a revocation list.
* **C148** `sign_masa_pledge_voucher` (request.c:346-425) sets no created-on, which RFC 8366 (section 5.3) makes mandatory, and always sets expires-on, which must not be there beside a nonce; the comment
  above (406) says that it is for vouchers without nonce. No issued voucher satisfies the schema, so that a pledge of another make may refuse all of them. The delivered configuration
  has `expiresOn = ""`, with which `masa_requestvoucher` refuses every request (masa_api.cpp:82).
* **C149** `voucher_req_cb` (masa_api.cpp:27-55) takes no notice of the certificates of the registrar and pins the certificate in the file of the configuration (comments there say that a
  data base is to come): a registrar of another domain that the MASA trusts gets vouchers for the configured domain. A pledge accepts such a voucher from it all the same (C33, as the pledge
  gives no domain store), and only the enrolment, which trusts the pinned certificate alone (C70), then fails.
* **C150** `sign_masa_pledge_voucher` (request.c:317-345) compares the serial numbers in the two texts, but verifies the pledge's request without asking for its signers (last argument NULL): any device
  that the MASA trusts can sign a request with the serial number of another one. The registrar compares the number with the certificate of the TLS connection (C27), but not with the
  signer either.
* **C151** `sign_voucher_request` (request.c:121-123) likewise verifies the pledge's request without asking for its signers: the registrar passes on a request signed by a device other than
  its client, and puts the issuer of the client's certificate (not of the signer's) beside it.
* **C152** `sign_masa_pledge_voucher` (request.c:247-445) never looks at the idevid-issuer that `sign_voucher_request` has put into the request (request.c:214) and sets none in the voucher: where
  two makers share a MASA and a serial number, a voucher for the device of the one is a voucher for that of the other (a nonce of the pledge prevents its use).
* **C109** (forms) Content of a form whose type has no boundary is not read at all (httplib.h:6545-6548), and of a form that is refused only up to the piece at which it is refused
  (`C109_violated_unbounded`, `C109_violated_refused`): what is left is read as the next request of the connection, like in C139 but without any pause.

## 5. Axioms

All theorems in `MANIFEST.json` depend on no axioms other than `propext`, `Classical.choice` and
`Quot.sound` (checked with `#print axioms`; there is no `sorryAx`, no `Lean.ofReduceBool`).
