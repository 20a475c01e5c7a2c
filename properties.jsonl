{"id": "C01", "title": "Base64 round trip", "statement": "Encoding a non-empty byte array to base64 text and decoding that text returns exactly the original bytes and the original length.", "quantifier": "every byte array of length 1 .. SIZE_MAX/4-1", "why_tests_cant": "tests sample a handful of lengths; the claim covers every length residue and every byte value", "anchors": ["src/voucher/serialize.c:serialize_array2base64str", "src/voucher/serialize.c:serialize_base64str2array", "src/voucher/serialize.c:base64_gen_encode", "src/voucher/serialize.c:base64_gen_decode"]}
{"id": "C02", "title": "Base64 output is the canonical RFC 4648 text", "statement": "The text produced for any byte array is exactly the RFC 4648 section 4 encoding (24-bit groups split in 6-bit indices, '=' padding to a multiple of 4, no line breaks), is NUL terminated, and the reported length is 4*ceil(n/3).", "quantifier": "every byte array within the size limit", "why_tests_cant": "unbounded input space; equality with an independent specification", "anchors": ["src/voucher/serialize.c:base64_gen_encode"]}
{"id": "C03", "title": "Base64 codec memory safety", "statement": "Neither the encoder nor the decoder ever writes outside the buffer it allocated or reads outside the given input, whatever the input text is.", "quantifier": "every input byte string (valid, invalid, with padding anywhere) for the decoder, every byte array for the encoder", "why_tests_cant": "an out-of-bounds write for one specific padding/garbage pattern would be missed by sampling", "anchors": ["src/voucher/serialize.c:base64_gen_encode", "src/voucher/serialize.c:base64_gen_decode"]}
{"id": "C04", "title": "Base64 decoder ignores characters outside the alphabet", "statement": "Inserting or deleting characters that are neither base64 alphabet characters nor '=' (line feeds, spaces, ...) anywhere in a text does not change the result of decoding; missing trailing '=' are implied.", "quantifier": "every text and every set of inserted foreign characters", "why_tests_cant": "quantifies over all insertions in all texts", "anchors": ["src/voucher/serialize.c:base64_gen_decode"]}
{"id": "C05", "title": "A failed base64 decode leaves nothing to free", "statement": "When decoding reports failure the output pointer is NULL, so a caller that releases its array on the error path does not free memory twice.", "quantifier": "every input text", "why_tests_cant": "the failing path needs specific padding; the effect is heap corruption not visible in a return value", "anchors": ["src/voucher/serialize.c:base64_gen_decode", "src/voucher/serialize.c:serialize_base64str2array", "src/voucher/array.c:free_binary_array_content"]}
{"id": "C06", "title": "Boolean text", "statement": "Text is accepted as a boolean exactly when it is 0, 1 or a letter-case variant of true/false, with the obvious meaning, and serialising a boolean then parsing it returns it.", "quantifier": "every byte string", "why_tests_cant": "all strings up to length 5 in any letter case, and every longer string", "anchors": ["src/voucher/serialize.c:serialize_bool2str", "src/voucher/serialize.c:serialize_str2bool"]}
{"id": "C07", "title": "Timestamp round trip", "statement": "Formatting a calendar time (year 0..9999, valid month/day/hour/minute/second) and parsing the text gives back the same year, month, day, hour, minute and second, with yearday and (for years from 1 on) weekday being those of that date.", "quantifier": "every such time", "why_tests_cant": "10^11 distinct times", "anchors": ["src/voucher/serialize.c:serialize_time2str", "src/voucher/serialize.c:serialize_str2time"]}
{"id": "C08", "title": "Only real date-and-time text is accepted", "statement": "If text is accepted as a timestamp then it has the form YYYY-MM-DDThh:mm:ssZ and names an existing calendar day (RFC 3339 / yang:date-and-time).", "quantifier": "every byte string", "why_tests_cant": "acceptance of malformed text is about all strings outside the grammar", "anchors": ["src/voucher/serialize.c:serialize_str2time", "src/voucher/voucher.c:set_attr_strtime_voucher"]}
{"id": "C09", "title": "Voucher attributes behave like a typed record", "statement": "After any sequence of set/clear calls (memory available, arrays with a pointer), reading an attribute returns the value of the last successful set of that attribute (or empty after clear / at start); setting one attribute never changes another; calls with the wrong attribute kind fail.", "quantifier": "every sequence of API calls with every argument", "why_tests_cant": "unbounded histories over 11 attributes", "anchors": ["src/voucher/voucher.c:set_attr_voucher", "src/voucher/voucher.c:set_attr_bool_voucher", "src/voucher/voucher.c:set_attr_time_voucher", "src/voucher/voucher.c:set_attr_enum_voucher", "src/voucher/voucher.c:set_attr_str_voucher", "src/voucher/voucher.c:set_attr_array_voucher", "src/voucher/voucher.c:clear_attr_voucher", "src/voucher/voucher.c:get_attr_bool_voucher", "src/voucher/voucher.c:get_attr_time_voucher", "src/voucher/voucher.c:get_attr_enum_voucher", "src/voucher/voucher.c:get_attr_str_voucher", "src/voucher/voucher.c:get_attr_array_voucher", "src/voucher/voucher.c:is_attr_voucher_nonempty"]}
{"id": "C10", "title": "A failed set leaves the voucher unchanged", "statement": "When a set call returns -1 every attribute still reads as before the call, also when the reason is memory exhaustion or a length without data.", "quantifier": "every voucher state, every argument, every allocation outcome", "why_tests_cant": "allocation failure points cannot be exhausted by tests", "anchors": ["src/voucher/voucher.c:set_attr_array_voucher", "src/voucher/voucher.c:set_attr_nstr_voucher", "src/voucher/array.c:copy_binary_array"]}
{"id": "C11", "title": "Voucher value invariants", "statement": "In every voucher obtained by any mix of API calls and parsing, the assertion is one of none/verified/logged/proximity and a serial number is shorter than 128 bytes and contains no NUL byte.", "quantifier": "every history of sets, clears and deserialisations", "why_tests_cant": "invariant over unbounded histories and all inputs", "anchors": ["src/voucher/voucher.c:set_attr_enum_voucher", "src/voucher/voucher.c:set_attr_nstr_voucher", "src/voucher/voucher.c:deserialize_voucher"]}
{"id": "C12", "title": "Voucher memory is released exactly once", "statement": "For any sequence of attribute calls followed by free_voucher no block is freed twice, and no block owned by the voucher remains allocated.", "quantifier": "every sequence of API calls", "why_tests_cant": "leaks and double frees depend on the history", "anchors": ["src/voucher/voucher.c:free_voucher", "src/voucher/voucher.c:clear_attr_voucher", "src/voucher/voucher.c:set_attr_array_voucher", "src/voucher/voucher.c:set_attr_nstr_voucher", "src/voucher/array.c:copy_binary_array"]}
{"id": "C13", "title": "Vouchers own copies of caller data", "statement": "Changing or freeing the caller's array after a successful set does not change the voucher.", "quantifier": "every array value and every later mutation by the caller", "why_tests_cant": "aliasing has to be excluded for all later writes", "anchors": ["src/voucher/voucher.c:set_attr_array_voucher", "src/voucher/array.c:copy_binary_array", "src/utils/os.c:sys_memdup"]}
{"id": "C14", "title": "Voucher JSON round trip", "statement": "Serialising a voucher with valid times, non-empty arrays and a serial number free of quotes, backslashes and control characters and deserialising the text gives back a voucher with the same attributes.", "quantifier": "every such voucher, any subset of attributes, arrays of any size", "why_tests_cant": "2^11 presence patterns times unbounded contents", "anchors": ["src/voucher/voucher.c:serialize_voucher", "src/voucher/voucher.c:deserialize_voucher", "src/voucher/serialize.c:serialize_keyvalue2json"]}
{"id": "C15", "title": "Any voucher built through the API round trips", "statement": "Every voucher that can be built with the set calls is recovered unchanged from its serialisation; in particular the content of the serial number cannot change another attribute.", "quantifier": "every voucher reachable through the API", "why_tests_cant": "requires considering every string the setter accepts", "anchors": ["src/voucher/serialize.c:serialize_escapestr", "src/voucher/voucher.c:serialize_voucher", "src/voucher/voucher.c:deserialize_voucher"]}
{"id": "C16", "title": "Deserialisation is total and memory safe", "statement": "Deserialising an arbitrary byte buffer returns a voucher or NULL and never reads outside the buffer or the token table.", "quantifier": "every byte buffer of every length", "why_tests_cant": "fuzzing samples; the claim covers all inputs", "anchors": ["src/voucher/voucher.c:deserialize_voucher", "src/voucher/voucher.c:set_keyvalue_voucher", "src/voucher/voucher.c:check_size_str_equal"]}
{"id": "C17", "title": "Unknown or malformed attributes are rejected", "statement": "If deserialisation succeeds then every member of the voucher object has one of the eleven attribute names and a value valid for it, and the voucher holds exactly the values of these members (the last one wins for repeated names).", "quantifier": "every accepted byte buffer", "why_tests_cant": "quantifies over all accepted documents", "anchors": ["src/voucher/voucher.c:deserialize_voucher", "src/voucher/voucher.c:set_keyvalue_voucher"]}
{"id": "C18", "title": "The voucher object is found by its exact name", "statement": "A document is accepted as a voucher only if it has a member named exactly ietf-voucher:voucher.", "quantifier": "every byte buffer", "why_tests_cant": "needs all documents with other member names", "anchors": ["src/voucher/voucher.c:deserialize_voucher"]}
{"id": "C19", "title": "Token budget", "statement": "A document needing more than 32 JSON tokens is rejected, and the serialisation of every voucher needs at most 25.", "quantifier": "every document / every voucher", "why_tests_cant": "bound has to hold for all attribute combinations", "anchors": ["src/voucher/voucher.c:deserialize_voucher", "src/voucher/voucher.c:serialize_voucher"]}
{"id": "C20", "title": "Serialised form", "statement": "The serialisation is one JSON object with the single member ietf-voucher:voucher whose members are the non-empty attributes, each exactly once, in schema order.", "quantifier": "every voucher for which serialisation succeeds", "why_tests_cant": "all presence patterns and values", "anchors": ["src/voucher/voucher.c:serialize_voucher", "src/voucher/voucher.c:voucher_to_keyvalue", "src/voucher/serialize.c:serialize_keyvalue2json"]}
{"id": "C21", "title": "JSON text buffer sizing", "statement": "Joining any list of key/value strings writes exactly the joined text with its NUL terminator inside the allocated buffer.", "quantifier": "every non-empty list of strings", "why_tests_cant": "buffer arithmetic for all list lengths and string lengths", "anchors": ["src/voucher/serialize.c:concatenate_keyvalue", "src/voucher/serialize.c:serialize_keyvalue2json", "src/voucher/serialize.c:serialize_escapestr", "src/utils/os.c:sys_realloc_array"]}
{"id": "C22", "title": "Binary array list is a FIFO of copies", "statement": "After any sequence of pushes to a new list, iteration visits exactly the pushed (bytes, flags) pairs in order, and the doubly linked ring stays well formed.", "quantifier": "every sequence of pushes", "why_tests_cant": "pointer structure invariant over unbounded histories", "anchors": ["src/voucher/array.c:init_array_list", "src/voucher/array.c:push_array_list", "src/voucher/array.h:dl_list_add_tail", "src/voucher/array.h:dl_list_for_each", "src/voucher/array.h:dl_list_len"]}
{"id": "C23", "title": "Freeing a list releases every block exactly once", "statement": "free_array_list on a list built by any sequence of pushes frees the head, every node and every copied buffer exactly once and touches nothing else.", "quantifier": "every list built by pushes", "why_tests_cant": "heap property over unbounded histories", "anchors": ["src/voucher/array.c:free_array_list", "src/voucher/array.c:free_array_list_el", "src/voucher/array.h:dl_list_del"]}
{"id": "C24", "title": "A push that runs out of memory is harmless", "statement": "When memory is exhausted during a push the call returns -1 and the list is unchanged.", "quantifier": "every list state and every allocation failure point", "why_tests_cant": "failure injection at each allocation is not exercised by tests", "anchors": ["src/voucher/array.c:push_array_list", "src/voucher/array.c:free_array_list_el", "src/voucher/keyvalue.c:push_keyvalue_list", "src/voucher/keyvalue.c:free_keyvalue_list_el"]}
{"id": "C25", "title": "Array comparison is byte equality", "statement": "compare_binary_array returns 1 exactly for equal byte strings, 0 for different ones and -1 when an argument is missing; on present arrays it is an equivalence relation.", "quantifier": "every pair/triple of arrays", "why_tests_cant": "all pairs", "anchors": ["src/voucher/array.c:compare_binary_array"]}
{"id": "C26", "title": "Pledge request content", "statement": "A successful pledge voucher request is a CMS, signed with the given certificate and key, of a voucher holding exactly created-on, assertion=proximity, proximity-registrar-cert, serial-number and (iff given) nonce with the given values.", "quantifier": "every combination of arguments whose voucher text is below 2 GiB (longer texts: C98) and every behaviour of the signing primitive", "why_tests_cant": "all argument values", "anchors": ["src/voucher/request.c:sign_pledge_voucher_request", "src/voucher/voucher.c:sign_cms_voucher"]}
{"id": "C27", "title": "Registrar vets the pledge request", "statement": "The registrar produces a voucher request only if the pledge CMS verifies, its serial-number equals the IDevID serial, its proximity certificate equals the registrar TLS certificate and its assertion is proximity; the request contains exactly created-on, the certified serial, the issuer, the unmodified pledge CMS and the pledge nonce iff present.", "quantifier": "every CMS, every argument, every verification primitive", "why_tests_cant": "decision logic over all inputs", "anchors": ["src/voucher/request.c:sign_voucher_request"]}
{"id": "C28", "title": "A pledge request without a serial number is refused", "statement": "When the verified pledge request has no serial-number the registrar refuses it (returns NULL) without undefined behaviour.", "quantifier": "every such request", "why_tests_cant": "needs a signed request lacking a field; the effect is a crash", "anchors": ["src/voucher/request.c:sign_voucher_request", "src/voucher/voucher.c:get_attr_str_voucher"]}
{"id": "C29", "title": "MASA issues only for consistent requests", "statement": "The MASA issues a voucher only if the registrar CMS verifies under the registrar trust material, it carries a serial-number and a prior-signed request that verifies under the pledge trust material, and both serial numbers are equal; the voucher holds exactly assertion=proximity, that serial, the certificate chosen by the callback, revocation-checks=false, the given expiry and the request nonce if any.", "quantifier": "every CMS pair, every argument, every callback and verification primitive (the text of the issued voucher below 2 GiB; longer texts: C98)", "why_tests_cant": "decision logic over all inputs", "anchors": ["src/voucher/request.c:sign_masa_pledge_voucher"]}
{"id": "C30", "title": "Issued nonce is the pledge's nonce", "statement": "The nonce in an issued voucher equals the nonce in the pledge's own signed request contained in the registrar request.", "quantifier": "every registrar request", "why_tests_cant": "a dishonest registrar chooses the outer nonce freely", "anchors": ["src/voucher/request.c:sign_masa_pledge_voucher"]}
{"id": "C31", "title": "MASA checks proximity before asserting it", "statement": "A voucher asserting proximity is issued only if the pledge request asserts proximity and names a certificate of the requesting registrar.", "quantifier": "every registrar request", "why_tests_cant": "requires all inconsistent requests to be refused", "anchors": ["src/voucher/request.c:sign_masa_pledge_voucher"]}
{"id": "C32", "title": "Pledge accepts only matching vouchers", "statement": "A pledge accepts a voucher only if its CMS verifies, its serial-number equals the pledge serial, it has the pledge's nonce whenever one was supplied, and it contains a pinned-domain-cert; the returned certificate is exactly that one. On every other input -1 is returned.", "quantifier": "every CMS, serial, nonce and verification primitive", "why_tests_cant": "decision logic over all inputs", "anchors": ["src/voucher/request.c:verify_masa_pledge_voucher"]}
{"id": "C33", "title": "Registrar is authenticated by the pinned certificate", "statement": "A pledge accepts a voucher only if the registrar TLS certificate is validated by a chain anchored in the voucher's pinned-domain-cert.", "quantifier": "every registrar certificate and voucher", "why_tests_cant": "needs all pairs of unrelated certificates", "anchors": ["src/voucher/request.c:verify_masa_pledge_voucher", "src/brski/pledge/pledge_request.cpp:verify_masa_pledge_request", "src/voucher/crypto_ossl.c:crypto_verify_cert"]}
{"id": "C34", "title": "Expired vouchers are refused", "statement": "A pledge does not accept a voucher whose expires-on lies in the past.", "quantifier": "every time and every voucher", "why_tests_cant": "depends on clock versus content", "anchors": ["src/voucher/request.c:verify_masa_pledge_voucher"]}
{"id": "C35", "title": "Honest run completes", "statement": "With a correct signature scheme, if pledge, registrar and MASA run the protocol with matching serial, certificate and trust material, every step succeeds and the pledge obtains exactly the certificate chosen by the MASA.", "quantifier": "every serial (the text of a JSON string: no quotes and backslashes but for escapes), nonce, certificate, time", "why_tests_cant": "end to end composition for all values", "anchors": ["src/voucher/request.c:sign_pledge_voucher_request", "src/voucher/request.c:sign_voucher_request", "src/voucher/request.c:sign_masa_pledge_voucher", "src/voucher/request.c:verify_masa_pledge_voucher"]}
{"id": "C36", "title": "Voucher authenticity against a network adversary", "statement": "If MASA signatures are unforgeable, whenever a pledge accepts a voucher for its serial and nonce the MASA issued a voucher with this serial and nonce earlier in the run, after receiving a registrar request containing a signed pledge request for that serial.", "quantifier": "every interleaving of honest steps with arbitrary adversary messages", "why_tests_cant": "unbounded traces and adversary choices", "anchors": ["src/voucher/request.c:sign_masa_pledge_voucher", "src/voucher/request.c:verify_masa_pledge_voucher"]}
{"id": "C37", "title": "Signer trust is always checked", "statement": "A CMS is accepted only if its signer chains to a configured trust anchor; configuring no trust anchor accepts nobody.", "quantifier": "every CMS and every trust configuration", "why_tests_cant": "the absence of configuration is an input too", "anchors": ["src/voucher/crypto_ossl.c:crypto_verify_cms", "src/brski/config.c:load_cert_files"]}
{"id": "C38", "title": "Trust lists are all or nothing", "statement": "If any certificate in a supplied additional-certificate or trust list cannot be decoded, or has an unknown type flag in a trust list, verification fails instead of silently ignoring it.", "quantifier": "every list with at least one bad entry at any position", "why_tests_cant": "position and content of the bad entry", "anchors": ["src/voucher/crypto_ossl.c:get_certificate_stack", "src/voucher/crypto_ossl.c:get_certificate_store", "src/voucher/crypto_ossl.c:crypto_verify_cms", "src/voucher/crypto_ossl.c:crypto_verify_cert"]}
{"id": "C39", "title": "Registrar HTTP result reflects the MASA result", "statement": "The registrar answers 200 to a voucher request only if the MASA answered with a success status, and then the body is the MASA body.", "quantifier": "every MASA answer (status, body) and every request", "why_tests_cant": "all status codes and failure points", "anchors": ["src/brski/registrar/registrar_api.cpp:registrar_requestvoucher", "src/brski/registrar/registrar_api.cpp:post_voucher_request"]}
{"id": "C40", "title": "MASA HTTP result", "statement": "The MASA endpoint answers 200 exactly when a voucher was issued, with the base64 text of exactly that voucher as body, and 400 with an empty body otherwise.", "quantifier": "every request body, configuration and environment", "why_tests_cant": "all failure points", "anchors": ["src/brski/masa/masa_api.cpp:masa_requestvoucher"]}
{"id": "C41", "title": "Malformed request bodies are harmless", "statement": "For every HTTP body the endpoints return a status and free each memory block at most once.", "quantifier": "every request body", "why_tests_cant": "the trigger is a specific padding pattern and the effect heap corruption", "anchors": ["src/brski/registrar/registrar_api.cpp:registrar_requestvoucher", "src/brski/registrar/registrar_api.cpp:registrar_est_simpleenroll", "src/brski/masa/masa_api.cpp:masa_requestvoucher", "src/brski/pledge/pledge_request.cpp:post_voucher_pledge_request", "src/brski/pledge/pledge_request.cpp:post_sign_cert", "src/voucher/serialize.c:base64_gen_decode"]}
{"id": "C42", "title": "Concurrent MASA requests are isolated", "statement": "Requests served concurrently behave as if served one after another: each uses its own certificate and no block is freed twice.", "quantifier": "every interleaving of any number of requests", "why_tests_cant": "schedules cannot be enumerated by tests", "anchors": ["src/brski/masa/masa_api.cpp:masa_requestvoucher", "src/brski/masa/masa_api.cpp:voucher_req_cb", "src/brski/masa/masa_config.h:MasaContext"]}
{"id": "C43", "title": "Certificate file loading", "statement": "Loading a list of certificate files yields all certificates in order or fails; on failure no dangling list is handed to the caller.", "quantifier": "every list of paths and every file outcome", "why_tests_cant": "failure at each position", "anchors": ["src/brski/config.c:load_cert_files", "src/brski/pledge/pledge_utils.c:voucher_pledge_request_to_array", "src/brski/pledge/pledge_request.cpp:verify_masa_pledge_request", "src/brski/masa/masa_api.cpp:masa_requestvoucher"]}
{"id": "C44", "title": "Repeated configuration keys", "statement": "A key that appears several times in a section (cmsAdditionalCertPath, cmsVerifyCertPath, cmsVerifyStorePath) yields the list of all its values in file order.", "quantifier": "every configuration file", "why_tests_cant": "all key sequences", "anchors": ["src/brski/config.c:load_config_value_list"]}
{"id": "C45", "title": "Configuration release is idempotent", "statement": "Releasing a configuration any number of times, also after a failed load, frees every block exactly once.", "quantifier": "every load outcome and every number of releases", "why_tests_cant": "failure points times repetitions", "anchors": ["src/brski/config.c:free_config_content", "src/brski/config.c:free_masa_config_content", "src/brski/config.c:load_brski_config", "src/brski/config.c:load_config_value_list"]}
{"id": "C46", "title": "Route table", "statement": "A request is dispatched to the handler registered for exactly its method and path; every listed endpoint of registrar and MASA is reachable and no other (method, path) pair reaches a handler.", "quantifier": "every (method, path)", "why_tests_cant": "all strings as paths", "anchors": ["src/brski/http/httplib_wrapper.cpp:httplib_register_routes", "src/brski/registrar/registrar_server.cpp:setup_registrar_routes", "src/brski/masa/masa_server.cpp:setup_masa_routes"]}
{"id": "C47", "title": "Header merging", "statement": "The header map handed to a handler contains each received header name once, with all its values joined by ', ' in the order received.", "quantifier": "every header multiset", "why_tests_cant": "unbounded header lists", "anchors": ["src/brski/http/httplib_wrapper.cpp:get_request_header"]}
{"id": "C48", "title": "Standard input is bounded", "statement": "Reading a voucher from standard input never writes outside the 4096 byte buffer and rejects longer input.", "quantifier": "every input length", "why_tests_cant": "the failing lengths are exactly the boundary ones", "anchors": ["src/brski/brski.cpp:read_stdin", "src/brski/brski.cpp:main"]}
{"id": "C49", "title": "Hex formatting", "statement": "Formatting bytes as hex never writes outside the buffer, always NUL terminates, the text is a prefix of the full hex expansion and the returned count is its length.", "quantifier": "every buffer size and every byte string", "why_tests_cant": "truncation point arithmetic for all sizes", "anchors": ["src/utils/log.c:printf_hex"]}
{"id": "C50", "title": "Command line", "statement": "The chosen command is the one with exactly the given label; unknown labels are refused; the port/address overrides change only the registrar endpoint and only for preq, sign and registrar.", "quantifier": "every argument vector", "why_tests_cant": "all argument vectors", "anchors": ["src/brski/brski.cpp:get_command_id", "src/brski/brski.cpp:process_options", "src/brski/brski.cpp:main"]}
{"id": "C51", "title": "Certificate serial extraction", "statement": "The pledge serial number is the value of the first serialNumber entry of the certificate subject; the name list contains at most one entry per known name, in the fixed order.", "quantifier": "every distinguished name", "why_tests_cant": "all name sequences with repetitions", "anchors": ["src/voucher/crypto_ossl.c:get_x509_entry", "src/voucher/crypto_ossl.c:get_x509_keyvalue", "src/voucher/crypto_ossl.c:crypto_getcert_serial"]}
{"id": "C52", "title": "String and allocation helpers", "statement": "sys_strlcpy/sys_strnlen_s/sys_strndup/sys_realloc_array follow their documented contracts: bounded copy with terminator, length capped by the maximum, exact duplicate, no size overflow.", "quantifier": "every string and every size", "why_tests_cant": "boundary arithmetic for all sizes", "anchors": ["src/utils/os.c:sys_strlcpy", "src/utils/os.c:sys_strnlen_s", "src/utils/os.c:sys_strndup", "src/utils/os.c:sys_realloc_array", "src/utils/os.c:sys_memdup"]}
{"id": "C53", "title": "Timestamps are UTC", "statement": "The created-on text (suffix Z) written for the current instant denotes that instant, whatever the local time zone is.", "quantifier": "every instant and every time zone offset", "why_tests_cant": "tests run in one time zone", "anchors": ["src/utils/os.c:get_localtime", "src/voucher/serialize.c:serialize_localtime", "src/brski/registrar/registrar_api.cpp:registrar_requestvoucher", "src/brski/pledge/pledge_utils.c:voucher_pledge_request_to_array"]}
{"id": "C54", "title": "Certificate seen equals certificate verified", "statement": "The registrar certificate the pledge names in its request is the one the accepted voucher is checked against.", "quantifier": "every behaviour of the network between the two connections", "why_tests_cant": "needs an adversary acting between two connections", "anchors": ["src/brski/pledge/pledge_request.cpp:post_voucher_pledge_request"]}
{"id": "C55", "title": "Log filtering and locking", "statement": "A message is written iff logging is not quiet and its level is at least the configured level or it is sent by the one function that ignores levels; a message whose text has no newline is one line (C145 for the others); messages of concurrent writers are never interleaved and the lock is always released.", "quantifier": "every configuration, message sequence and schedule", "why_tests_cant": "schedules", "anchors": ["src/utils/log.c:log_msg", "src/utils/log.c:log_check_level", "src/brski/brski.cpp:log_lock_fun"]}
{"id": "C56", "title": "Enrolment log", "statement": "Each successful enrolment appends exactly one line with the serial numbers of the client and of the issued certificate; earlier lines are never changed.", "quantifier": "every sequence of enrolments", "why_tests_cant": "unbounded histories", "anchors": ["src/brski/registrar/registrar_api.cpp:save_to_log", "src/brski/registrar/registrar_api.cpp:registrar_est_simpleenroll"]}
{"id": "C57", "title": "Only well-formed base64 is accepted", "statement": "If a text is accepted by the decoder then, foreign characters removed, it is the RFC 4648 encoding of the returned bytes (optionally without its final padding); in particular no meaningful characters are silently dropped and padding occurs only at the end.", "quantifier": "every text", "why_tests_cant": "all malformed texts must be rejected", "anchors": ["src/voucher/serialize.c:base64_gen_decode", "src/voucher/serialize.c:serialize_base64str2array"]}
{"id": "C58", "title": "Configuration members", "statement": "A successful load gives every string member the first value of its key in its section (names compared without regard to case, cut to the member's capacity), the default when the key is absent, and NULL when the text is empty; every list member is a list of C strings taken from its key.", "quantifier": "every configuration file and memory", "why_tests_cant": "all files times all members", "anchors": ["src/brski/config.c:load_pledge_config", "src/brski/config.c:load_registrar_config", "src/brski/config.c:load_masa_config", "src/brski/config.c:load_brski_config"]}
{"id": "C59", "title": "Enrolment issues the submitted certificate under the CA", "statement": "The enrolment endpoint answers 200 exactly when the submitted certificate could be given the issuer name and the signature of the configured CA, with the base64 text of exactly that certificate as body, and 400 with an empty body otherwise.", "quantifier": "every request body, client, configuration and certificate library", "why_tests_cant": "all failure points and all certificates", "anchors": ["src/brski/registrar/registrar_api.cpp:registrar_est_simpleenroll", "src/voucher/crypto_ossl.c:crypto_sign_cert"]}
{"id": "C60", "title": "Only authorised clients are enrolled", "statement": "The enrolment endpoint issues a certificate only to a client it has authorised; in particular never to one that shows no certificate.", "quantifier": "every client and request body", "why_tests_cant": "absence of a check for all clients", "anchors": ["src/brski/registrar/registrar_api.cpp:registrar_est_simpleenroll"]}
{"id": "C61", "title": "Registrar and MASA connected", "statement": "With the registrar connected to a MASA, a non-empty body answered with 200 to the pledge is the base64 text of a voucher the MASA issued for exactly the bytes the registrar signed after vetting the pledge; and when both library calls succeed the voucher reaches the pledge.", "quantifier": "every request body and configuration of both servers", "why_tests_cant": "composition of two programs over all inputs", "anchors": ["src/brski/registrar/registrar_api.cpp:registrar_requestvoucher", "src/brski/registrar/registrar_api.cpp:post_voucher_request", "src/brski/masa/masa_api.cpp:masa_requestvoucher"]}
{"id": "C62", "title": "Error replies are plain text", "statement": "Every error reply (status 400 or more) of both servers announces the one content type text/plain and, unless it answers a HEAD request, carries a non-empty text; a reply without error carries exactly what the handler produced under the handler's content type.", "quantifier": "every request line, handler outcome and connection mode", "why_tests_cant": "all request lines times all handler outcomes", "anchors": ["src/brski/http/httplib_wrapper.cpp:set_response", "src/brski/http/httplib_wrapper.cpp:set_error_handler", "src/brski/http/httplib.h:write_response_core", "src/brski/registrar/registrar_api.cpp:registrar_requestvoucher"]}
{"id": "C63", "title": "Request target", "statement": "The path used for dispatch is the percent-decoded text of the request target before its query and fragment, for every way of writing the path; a well-formed request line is always understood.", "quantifier": "every path, every mixture of plain and percent-encoded characters, every query and fragment", "why_tests_cant": "unbounded spellings of each path", "anchors": ["src/brski/http/httplib.h:parse_request_line", "src/brski/http/httplib.h:decode_url"]}
{"id": "C64", "title": "Announced length of a reply", "statement": "Every reply of both servers has exactly one Content-Length field, a decimal number equal to the length of the body that follows (for HEAD: of the body left out), also when an error handler replaced the body.", "quantifier": "every request line, handler outcome and connection mode", "why_tests_cant": "all replies, including those whose body is replaced late", "anchors": ["src/brski/http/httplib.h:write_response_core", "src/brski/http/httplib_wrapper.cpp:set_error_handler", "src/brski/http/httplib_wrapper.cpp:set_response"]}
{"id": "C65", "title": "Help text", "statement": "Printing the help (on -h, without a command, or for an unknown command) is defined for every program name.", "quantifier": "every program name and argument vector", "why_tests_cant": "needs memory checking; the buffer usually happens to be followed by a zero byte", "anchors": ["src/brski/brski.cpp:show_help", "src/brski/brski.cpp:process_options"]}
{"id": "C66", "title": "The network cannot corrupt the pledge", "statement": "Whatever the network answers on the three connections of an onboarding, the pledge touches no released memory and in the end has released everything but the certificate and key it returns.", "quantifier": "every behaviour of the network (status, certificate and body of each answer) and every configuration without the defects recorded elsewhere", "why_tests_cant": "needs memory checking for all answers", "anchors": ["src/brski/pledge/pledge_request.cpp:post_voucher_pledge_request", "src/brski/pledge/pledge_request.cpp:verify_masa_pledge_request", "src/brski/pledge/pledge_request.cpp:post_sign_cert", "src/brski/pledge/pledge_utils.c:voucher_pledge_request_to_array"]}
{"id": "C67", "title": "Enrolment needs an accepted voucher", "statement": "The pledge sends an enrolment only after it accepted a voucher; the trust anchor it hands to that connection is exactly the certificate pinned by this voucher, the body is the certificate generated for its own key, at most one enrolment is sent, and what is returned is the certificate it was answered with and the generated key.", "quantifier": "every behaviour of the network and every configuration", "why_tests_cant": "all runs with all answers", "anchors": ["src/brski/pledge/pledge_request.cpp:post_sign_cert", "src/brski/pledge/pledge_request.cpp:create_cert_string", "src/brski/pledge/pledge_request.cpp:generate_sign_cert"]}
{"id": "C68", "title": "Certificate and key belong together", "statement": "The certificate an onboarding returns belongs to the key it returns.", "quantifier": "every behaviour of the network", "why_tests_cant": "absence of a check for all answers", "anchors": ["src/brski/pledge/pledge_request.cpp:post_sign_cert"]}
{"id": "C69", "title": "Vouchers cannot be replayed to the pledge", "statement": "An answer that made the pledge accept in one run does not make it accept in a run at another time.", "quantifier": "every pair of runs and every behaviour of the network", "why_tests_cant": "pairs of runs over all answers", "anchors": ["src/brski/pledge/pledge_request.cpp:post_voucher_pledge_request", "src/brski/pledge/pledge_request.cpp:verify_masa_pledge_request", "src/brski/pledge/pledge_utils.c:voucher_pledge_request_to_array"]}
{"id": "C70", "title": "Enrolment trusts only the pinned certificate", "statement": "When an enrolment of an onboarding is answered, the answering server's chain verifies against the certificate pinned by the accepted voucher, and against nothing else.", "quantifier": "every behaviour of the network, every set of certificates trusted by the system and every certificate library", "why_tests_cant": "needs a server with a certificate of a public authority; tests run with empty system stores", "anchors": ["src/brski/http/httplib_wrapper.cpp:httplib_post_request_ca", "src/brski/http/httplib.h:load_certs", "src/brski/http/httplib.h:set_ca_cert_store", "src/brski/pledge/pledge_request.cpp:post_sign_cert"]}
{"id": "C71", "title": "Servers talk to authenticated clients", "statement": "Every client registrar and MASA talk to presents a chain that verifies against the configured client certificates; in particular a certificate at all.", "quantifier": "every configuration, client and certificate library", "why_tests_cant": "all clients", "anchors": ["src/brski/http/httplib_wrapper.cpp:httplib_start", "src/brski/http/httplib.h:SSLServer", "src/brski/registrar/registrar_server.cpp:registrar_start", "src/brski/masa/masa_server.cpp:masa_start"]}
{"id": "C72", "title": "Starting a server", "statement": "Starting a server is defined for every configuration and environment and reports success exactly if the server came up; stopping it releases everything.", "quantifier": "every configuration and every failure of files, memory and sockets", "why_tests_cant": "failure points; undefined behaviour", "anchors": ["src/brski/http/httplib_wrapper.cpp:httplib_start", "src/brski/http/httplib_wrapper.cpp:httplib_stop", "src/brski/registrar/registrar_server.cpp:registrar_start", "src/brski/masa/masa_server.cpp:masa_start"]}
{"id": "C73", "title": "Vouchers come from an authenticated MASA", "statement": "A voucher the registrar passes on to a pledge was sent by a server whose certificate chain the registrar could verify.", "quantifier": "every network behaviour between registrar and MASA and every certificate library", "why_tests_cant": "absence of a check for all servers", "anchors": ["src/brski/registrar/registrar_api.cpp:post_voucher_request", "src/brski/http/httplib_wrapper.cpp:httplib_post_request", "src/brski/http/httplib.h:initialize_ssl"]}
{"id": "C74", "title": "Missing functions are reported", "statement": "An endpoint the program does not implement (voucher status, audit log, enrolment status, and at the MASA all of EST) never answers with a success status.", "quantifier": "every request line for such an endpoint, every header and body", "why_tests_cant": "all request lines for all endpoints", "anchors": ["src/brski/registrar/registrar_api.cpp", "src/brski/masa/masa_api.cpp", "src/brski/registrar/registrar_server.cpp:setup_registrar_routes", "src/brski/masa/masa_server.cpp:setup_masa_routes"]}
{"id": "C75", "title": "Replies cannot be split", "statement": "Whatever names and values a handler puts into its header map, the reply on the wire has exactly one line per field; fields without line ends arrive, others are dropped.", "quantifier": "every header map, body, status and connection mode", "why_tests_cant": "all byte strings as names and values", "anchors": ["src/brski/http/httplib_wrapper.cpp:set_response", "src/brski/http/httplib.h:set_header", "src/brski/http/httplib.h:write_headers"]}
{"id": "C76", "title": "Messages arrive unchanged", "statement": "The body a client posts is the body the handler of that path sees, and the status and body the handler answers are those the client gets (an empty error body replaced by the error text), through all the text written to and read from the connection.", "quantifier": "every host, path, content type and body a client can post, every handler and anything following on the connection", "why_tests_cant": "unbounded bodies, including those that look like headers", "anchors": ["src/brski/http/httplib_wrapper.cpp:httplib_post_request", "src/brski/http/httplib.h:read_content", "src/brski/http/httplib.h:read_headers", "src/brski/http/httplib.h:write_request", "src/brski/http/httplib.h:write_response_core", "src/brski/http/httplib.h:read_response_line"]}
{"id": "C77", "title": "Cut messages are refused", "statement": "When the connection ends anywhere before a message is complete, a client reports an error and a server runs no handler.", "quantifier": "every request and reply and every proper prefix of it", "why_tests_cant": "all points where the connection may end", "anchors": ["src/brski/http/httplib.h:read_content_with_length", "src/brski/http/httplib.h:read_headers", "src/brski/http/httplib.h:getline", "src/brski/http/httplib.h:process_request"]}
{"id": "C78", "title": "Reading a message is defined", "statement": "No bytes on a connection make reading a request or a reply undefined.", "quantifier": "every byte string", "why_tests_cant": "all malformed messages; the effect is not visible on usual machines", "anchors": ["src/brski/http/httplib.h:read_content_chunked", "src/brski/http/httplib.h:read_headers", "src/brski/http/httplib.h:read_response_line"]}
{"id": "C79", "title": "Chunked content", "statement": "Content sent in chunks is the data of the chunks in order and nothing else, whatever the spelling of the sizes, the extensions and the trailer; the connection continues behind the trailer.", "quantifier": "every list of chunks, every spelling of sizes, every extension and trailer", "why_tests_cant": "unbounded lists of chunks", "anchors": ["src/brski/http/httplib.h:read_content_chunked"]}
{"id": "C80", "title": "Cryptographic functions release what they acquire", "statement": "Whatever library calls fail, each function of the cryptographic layer does nothing undefined, and afterwards every object has as many references as before, less those given away by the caller, plus those in the result.", "quantifier": "every function, every argument, every pattern of failing library calls, lists of any length, any number of signers", "why_tests_cant": "failure points inside the library; leaks and surplus releases have no visible result", "anchors": ["src/voucher/crypto_ossl.c:crypto_generate_rsakey", "src/voucher/crypto_ossl.c:crypto_generate_eckey", "src/voucher/crypto_ossl.c:crypto_generate_eccert", "src/voucher/crypto_ossl.c:crypto_generate_rsacert", "src/voucher/crypto_ossl.c:crypto_sign_cert", "src/voucher/crypto_ossl.c:get_certificate_stack", "src/voucher/crypto_ossl.c:get_certificate_store", "src/voucher/crypto_ossl.c:crypto_verify_cert", "src/voucher/crypto_ossl.c:sign_withkey_cms", "src/voucher/crypto_ossl.c:exatract_cms_certs", "src/voucher/crypto_ossl.c:crypto_verify_cms", "src/voucher/crypto_ossl.c:crypto_getcert_meta", "src/voucher/crypto_ossl.c:crypto_getcert_issuer", "src/voucher/crypto_ossl.c:crypto_copycert", "src/voucher/crypto_ossl.c:crypto_cert2buf", "src/voucher/crypto_ossl.c:file_to_x509buf", "src/voucher/crypto_ossl.c:file_to_keybuf", "src/voucher/crypto_ossl.c:cmsbuf_to_file", "src/voucher/voucher.c:verify_cms_voucher"]}
{"id": "C81", "title": "Failed key generation is reported", "statement": "When the library reports a failure of the generation of a key or of its parameters, by 0 or by a negative number, key generation answers NULL or -1.", "quantifier": "every library and every result of the calls", "why_tests_cant": "failures of the generator cannot be provoked", "anchors": ["src/voucher/crypto_ossl.c:crypto_generate_rsakey", "src/voucher/crypto_ossl.c:crypto_generate_eckey", "src/voucher/crypto_ossl.c:evpkey_to_derbuf"]}
{"id": "C82", "title": "Serving a request leaves nothing behind", "statement": "Making, issuing and checking voucher requests and vouchers, the registrar's handlers and a MASA serving any number of requests do nothing undefined, whatever fails, and afterwards every object has as many references as before, plus those in the result.", "quantifier": "every request body, configuration, pattern of failing calls and exhausted memory, and every number of requests", "why_tests_cant": "leaks have no visible result; failure points; unbounded histories", "anchors": ["src/voucher/request.c:sign_pledge_voucher_request", "src/voucher/request.c:sign_voucher_request", "src/voucher/request.c:sign_masa_pledge_voucher", "src/voucher/request.c:verify_masa_pledge_voucher", "src/brski/config.c:load_cert_files", "src/brski/registrar/registrar_api.cpp:registrar_requestvoucher", "src/brski/registrar/registrar_api.cpp:post_voucher_request", "src/brski/registrar/registrar_api.cpp:registrar_est_simpleenroll", "src/brski/registrar/registrar_api.cpp:save_to_log", "src/brski/masa/masa_api.cpp:masa_requestvoucher"]}
{"id": "C83", "title": "What the commands of the pledge put out", "statement": "Each command of the pledge uses the settings of the configuration file it was given (address and port from the command line first) and puts out exactly its result: preq and vmasa the certificate pinned by a voucher that passed every check, sign the certificate issued and the private key, epvr the signed request, serial the serial number.  With a file name, the result is in the file <name>.<ext> (for sign .crt and .key) and standard output gets nothing; when a command fails, the files are as before.", "quantifier": "every command line, configuration file, network behaviour, input and every failure of files and library", "why_tests_cant": "all command lines, file systems and failure points", "anchors": ["src/brski/brski.cpp:main", "src/brski/brski.cpp:output_domain_cert", "src/brski/brski.cpp:print_cert", "src/voucher/crypto_ossl.c:certbuf_to_file", "src/voucher/crypto_ossl.c:keybuf_to_file", "src/voucher/crypto_ossl.c:cmsbuf_to_file", "src/brski/pledge/pledge_utils.c:voucher_pledge_request_to_smimefile"]}
{"id": "C84", "title": "Onboarding succeeds when everything matches", "statement": "When pledge, registrar and MASA are configured for each other (serial number without quotes and control characters, trust in both directions, a chain from the registrar's certificate to the certificate the MASA pins), all connections are up and nothing runs out of memory, the request for a voucher over TLS and HTTP returns exactly the certificate the MASA pins, the enrolment that follows returns exactly the certificate the registrar's CA issues for the generated one together with the generated key, and the commands preq and sign put out exactly these.", "quantifier": "every such deployment, nonce, date, certificate, library, state of the servers' memory, command line and configuration file", "why_tests_cant": "the composition of three programs, the protocol stack and the configuration over all values", "anchors": ["src/brski/pledge/pledge_request.cpp:post_voucher_pledge_request", "src/brski/pledge/pledge_request.cpp:post_sign_cert", "src/brski/registrar/registrar_api.cpp:registrar_requestvoucher", "src/brski/registrar/registrar_api.cpp:registrar_est_simpleenroll", "src/brski/masa/masa_api.cpp:masa_requestvoucher", "src/brski/http/httplib_wrapper.cpp:httplib_post_request", "src/brski/http/httplib_wrapper.cpp:httplib_post_request_ca", "src/brski/http/httplib.h:process_request", "src/brski/brski.cpp:main"]}
{"id": "C85", "title": "Generated certificates contain exactly the metadata", "statement": "Every certificate that crypto_generate_eccert or crypto_generate_rsacert returns is of version 3, carries the given serial number, validity, issuer, subject (entries in the order of the list) and basic constraints and nothing else, is for the given key, and its signature verifies with that key; conversely, when the library can do all that, it is returned; there is only one such content.", "quantifier": "all metadata, keys, clocks, libraries and failing calls", "why_tests_cant": "all metadata and every point of failure", "anchors": ["src/voucher/crypto_ossl.c:crypto_generate_eccert", "src/voucher/crypto_ossl.c:crypto_generate_rsacert", "src/voucher/crypto_ossl.c:set_certificate_meta", "src/voucher/crypto_ossl.c:add_x509name_keyvalues", "src/voucher/crypto_ossl.c:sign_sha256_certificate"]}
{"id": "C86", "title": "Metadata survive the round trip through a certificate", "statement": "crypto_getcert_meta applied to a certificate made by crypto_generate_eccert or crypto_generate_rsacert gives the serial number, issuer pairs and subject pairs it was made from.", "quantifier": "all metadata with known, distinct keys and C strings as values, all libraries that decode what they encode", "why_tests_cant": "all values, including those outside ASCII", "anchors": ["src/voucher/crypto_ossl.c:crypto_getcert_meta", "src/voucher/crypto_ossl.c:set_certificate_meta", "src/voucher/crypto_ossl.c:add_x509name_keyvalues"]}
{"id": "C87", "title": "What is issued is what was submitted", "statement": "A certificate returned by crypto_sign_cert has version, serial number, validity, subject, extensions and public key of the submitted one, the subject of the CA's certificate as issuer, and a signature that the CA's key verifies; hence a pledge that enrols between matching parties holds a certificate for the key it generated, with its own name and number, that is no CA and is signed by the CA of the registrar.", "quantifier": "all submitted certificates, CAs, libraries; all matching deployments", "why_tests_cant": "quantifies over contents of certificates and over deployments", "anchors": ["src/voucher/crypto_ossl.c:crypto_sign_cert", "src/brski/registrar/registrar_api.cpp:registrar_est_simpleenroll", "src/brski/pledge/pledge_request.cpp:post_sign_cert", "src/brski/pledge/pledge_request.cpp:generate_sign_cert"]}
{"id": "C88", "title": "The CA signs only what it should", "statement": "crypto_sign_cert signs only certificates that carry a signature by the key they are for (proof of possession) and that do not claim to be certificates of a CA.", "quantifier": "all submitted certificates", "why_tests_cant": "needs adversarial submissions", "anchors": ["src/voucher/crypto_ossl.c:crypto_sign_cert", "src/brski/registrar/registrar_api.cpp:registrar_est_simpleenroll"]}
{"id": "C89", "title": "Random buffers are filled", "statement": "When crypto_getrand returns success, the whole buffer holds bytes of the generator.", "quantifier": "all lengths and generators", "why_tests_cant": "lengths of 2^32 bytes are not tested", "anchors": ["src/voucher/crypto_ossl.c:crypto_getrand"]}
{"id": "C90", "title": "Pledges generate distinguishable certificates", "statement": "The certificates that generate_sign_cert makes from different random bytes differ in serial number or subject.", "quantifier": "all generators, times, keys and libraries", "why_tests_cant": "needs particular values of the random bytes", "anchors": ["src/brski/pledge/pledge_request.cpp:generate_sign_cert", "src/brski/pledge/pledge_request.cpp:gen_rand64"]}
{"id": "C91", "title": "Requests on one connection are handled one by one", "statement": "On a connection that carries a sequence of well-formed requests, the i-th reply is the one the i-th request would get alone, and the handler that runs sees the content of that request and nothing else; content is never taken for a request, and a request never for content.", "quantifier": "all sequences of requests, routes, handlers and behaviours of the network", "why_tests_cant": "depends on the framing of every request before", "anchors": ["src/brski/http/httplib.h:process_server_socket_core", "src/brski/http/httplib.h:process_request", "src/brski/http/httplib.h:read_content"]}
{"id": "C92", "title": "The announced end of a connection is its end", "statement": "A reply says Connection: close exactly if the server ends the connection after it.", "quantifier": "all byte sequences a client can send and all handlers", "why_tests_cant": "needs raw connections with several requests", "anchors": ["src/brski/http/httplib.h:process_request", "src/brski/http/httplib.h:write_response_core"]}
{"id": "C93", "title": "Replies are complete or say which part they are", "statement": "Whatever Range field a request carries, the answer of a handler is sent as a whole unless the status says that the reply is a part (206) or that there is no such part (416); a part is exactly the bytes asked for, with its length and position in the fields.", "quantifier": "all Range fields, answers, routes and requests", "why_tests_cant": "depends on particular positions against the length of the answer", "anchors": ["src/brski/http/httplib.h:parse_range_header", "src/brski/http/httplib.h:get_range_offset_and_length", "src/brski/http/httplib.h:apply_ranges", "src/brski/http/httplib.h:make_multipart_ranges_data"]}
{"id": "C94", "title": "Onboarding leaves nothing behind, whatever fails", "statement": "Making a voucher request, checking an answer and the whole onboarding of a pledge do nothing undefined, whatever files, memory, library calls and connections fail, and afterwards every object has as many references as before, plus those in the result.", "quantifier": "every pattern of failures of memory, files, library and network, every configuration and every answer", "why_tests_cant": "the number of failure points and their combinations", "anchors": ["src/brski/pledge/pledge_utils.c:voucher_pledge_request_to_array", "src/brski/pledge/pledge_utils.c:voucher_pledge_request_to_smimefile", "src/brski/pledge/pledge_utils.c:voucher_pledge_request_to_base64", "src/brski/pledge/pledge_request.cpp:voucher_pledge_request_to_array", "src/brski/pledge/pledge_request.cpp:verify_masa_pledge_request", "src/brski/pledge/pledge_request.cpp:post_voucher_pledge_request", "src/brski/pledge/pledge_request.cpp:generate_sign_cert", "src/brski/pledge/pledge_request.cpp:post_sign_cert"]}
{"id": "C95", "title": "Servers and clients use the configured port", "statement": "The commands preq, sign and registrar run only if the command line or else the file names a port number from 1 to 65535, and connect to or listen on exactly this port; likewise the MASA and the registrar as its client with the port in the file.", "quantifier": "every command line, every configuration file and every text as port", "why_tests_cant": "all texts as numbers; the effect of a wrong one is a server on another port that reports success", "anchors": ["src/brski/config.c:load_masa_config", "src/brski/config.c:load_registrar_config", "src/brski/brski.cpp:process_options", "src/brski/brski.cpp:main", "src/brski/http/httplib_wrapper.cpp:httplib_start", "src/brski/http/httplib_wrapper.cpp:httplib_post_request", "src/brski/http/httplib.h:create_socket"]}
{"id": "C96", "title": "Every accepted connection is served exactly once", "statement": "Whatever fails and however the threads of a server are interleaved, the process goes on, connections are taken up in the order in which they were accepted, each by one thread and once, none waits while a thread is idle, and all have been served when the server returns.", "quantifier": "every number of threads, every interleaving, every sequence of connections, errors, wake-ups and failures", "why_tests_cant": "schedules cannot be enumerated by tests; a lost wake-up shows only under rare timing", "anchors": ["src/brski/http/httplib.h:ThreadPool", "src/brski/http/httplib.h:listen_internal", "src/brski/http/httplib_wrapper.cpp:httplib_start"]}
{"id": "C97", "title": "A server survives transient errors", "statement": "After an error of accept that says nothing about the listening socket (interruption, aborted connection, errors of the network) a server goes on accepting connections.", "quantifier": "every state of the server and every error number", "why_tests_cant": "such errors cannot be provoked at will", "anchors": ["src/brski/http/httplib.h:listen_internal", "src/brski/http/httplib_wrapper.cpp:httplib_start"]}
{"id": "C98", "title": "A signed message encloses all of the data", "statement": "Whatever the length of the data and the kind of key, the message that the signing functions return encloses exactly the data that was to be signed.", "quantifier": "every length of data, every certificate, key and list of further certificates, every OpenSSL whose messages enclose what it is given", "why_tests_cant": "the failing lengths start at two gigabytes", "anchors": ["src/voucher/crypto_ossl.c:crypto_sign_cms", "src/voucher/crypto_ossl.c:crypto_sign_eccms", "src/voucher/crypto_ossl.c:crypto_sign_rsacms", "src/voucher/voucher.c:sign_cms_voucher"]}
{"id": "C99", "title": "A voucher text that is cut short is refused", "statement": "A voucher document in any layout of which more than the white space at its end is missing is refused, wherever it is cut; in particular no proper beginning of a text written by the library is accepted.", "quantifier": "every well-formed flat document, every place of the cut", "why_tests_cant": "every position in every document", "anchors": ["src/voucher/voucher.c:deserialize_voucher", "src/voucher/voucher.c:serialize_voucher"]}
{"id": "C100", "title": "Text after a document does not change the voucher", "statement": "When a document that ends with its closing brace is accepted, text after it either makes it refused or leaves the voucher as it is.", "quantifier": "every document, every text after it", "why_tests_cant": "all pairs of documents and continuations", "anchors": ["src/voucher/voucher.c:deserialize_voucher"]}
{"id": "C101", "title": "Signing with a key of a given kind is signing", "statement": "The signing functions for vouchers with keys of elliptic curves and RSA keys give what the general one gives with the same key, and are as safe.", "quantifier": "every voucher, key, certificate, list, log level and pattern of memory failures", "why_tests_cant": "the difference shows only when memory fails while messages are printed", "anchors": ["src/voucher/voucher.c:sign_eccms_voucher", "src/voucher/voucher.c:sign_rsacms_voucher", "src/voucher/voucher.c:sign_cms_voucher"]}
{"id": "C102", "title": "Messages go to the log file that is open", "statement": "Every message that is shown goes to the file opened last, or to standard error if none is open; opening a file that cannot be opened changes nothing; no other stream stays open; new log files can be read and written by their owner only; the file mask is as before.", "quantifier": "every history of calls that set up the log, open and close files and send messages", "why_tests_cant": "all histories, including files that cannot be opened", "anchors": ["src/utils/log.c:log_open_file", "src/utils/log.c:log_close_file", "src/utils/log.c:log_msg", "src/utils/log.c:log_set_level", "src/utils/log.c:log_set_quiet", "src/utils/log.c:log_set_color"]}
{"id": "C103", "title": "Messages that end the process are written", "statement": "The functions that end the process with a message write it, whatever is set, and the process ends as a failure.", "quantifier": "every setting of the log, message and environment", "why_tests_cant": "all settings; a test of a function that ends the process ends with it", "anchors": ["src/utils/log.c:log_error_exit", "src/utils/log.c:log_error_exit_proc", "src/utils/log.c:terminate"]}
{"id": "C104", "title": "Values read from a voucher can be written back to it", "statement": "What a getter of a voucher returned can be handed to the setter of every attribute of the same kind of the same voucher, the attribute itself included: the call succeeds, the target then reads the same as the source, and all other attributes as before.", "quantifier": "every voucher state, every source attribute that is set and every target attribute of its kind, with memory available", "why_tests_cant": "tests use separate buffers for what they set", "anchors": ["src/voucher/voucher.c:set_attr_array_voucher", "src/voucher/voucher.c:set_attr_time_voucher", "src/voucher/voucher.c:get_attr_array_voucher", "src/voucher/voucher.c:get_attr_time_voucher", "src/voucher/voucher.c:get_attr_str_voucher", "src/voucher/array.c:copy_binary_array"]}
{"id": "C105", "title": "Requests served at the same time do not disturb one another's memory", "statement": "What a function that acquires and releases objects guarantees when nothing disturbs it (nothing undefined, every object with as many references afterwards as before, less those given away, plus those in the result), it also guarantees when any number of such functions run in threads and their steps are interleaved in any way; every such schedule comes to its end. In particular the registrar may serve any number of voucher requests and enrolments at the same time, if their bodies are not badly padded (C82) and memory for lists suffices: nothing undefined happens, and when all are answered every object has as many references as before.", "quantifier": "any number of threads, any functions with the property of C80 or C82, any interleaving of their steps, any results of library calls, any names of new objects, any memory at the start in which what is lent exists", "why_tests_cant": "the number of interleavings is astronomical and tests send one request at a time", "anchors": ["src/brski/registrar/registrar_api.cpp:registrar_requestvoucher", "src/brski/registrar/registrar_api.cpp:registrar_est_simpleenroll", "src/brski/registrar/registrar_api.cpp:save_to_log", "src/voucher/crypto_ossl.c:crypto_verify_cms", "src/brski/http/httplib_wrapper.cpp:httplib_start"]}
{"id": "C106", "title": "Log entries of enrolments served at the same time are whole lines", "statement": "However many enrolments are served at the same time and however their threads are interleaved, the enrolment log consists at every time of what it held before and of whole entries, each written once, and in the end of the entries of all of them.", "quantifier": "every number of enrolments, every entry, every way in which the stream library hands a text to the file, every interleaving", "why_tests_cant": "schedules and long serial numbers; tests enrol one pledge at a time", "anchors": ["src/brski/registrar/registrar_api.cpp:save_to_log", "src/brski/registrar/registrar_api.cpp:registrar_est_simpleenroll", "src/brski/http/httplib_wrapper.cpp:httplib_start"]}
{"id": "C107", "title": "A missing setting never makes a call undefined", "statement": "A call of a request handler of the MASA or the registrar, of the enrolment handler or of the pledge that is defined with some configuration is also defined when settings of the configuration are missing (a name of a file, an address, a time).", "quantifier": "every configuration and every selection of missing settings, every request body, every answer of the other side, every crypto library", "why_tests_cant": "settings are complete in the tests, and which setting is looked at depends on the request", "anchors": ["src/voucher/crypto_ossl.c:file_to_x509buf", "src/voucher/crypto_ossl.c:file_to_keybuf", "src/brski/masa/masa_api.cpp:masa_requestvoucher", "src/brski/registrar/registrar_api.cpp:registrar_requestvoucher", "src/brski/registrar/registrar_api.cpp:post_voucher_request", "src/brski/registrar/registrar_api.cpp:registrar_est_simpleenroll", "src/brski/pledge/pledge_utils.c:voucher_pledge_request_to_array", "src/brski/pledge/pledge_request.cpp:post_voucher_pledge_request"]}
{"id": "C108", "title": "Answers do not depend on what was served before", "statement": "The answer of the registrar to a voucher request or an enrolment, and of the MASA to a voucher request, is the one that a server just started would give, whatever requests, well formed or not, it has served before.", "quantifier": "every list of requests, bodies, clients, answers of the MASA and behaviours of the crypto library, every well-formed state of the heap at the start", "why_tests_cant": "needs all histories of a server process", "anchors": ["src/brski/registrar/registrar_api.cpp:registrar_requestvoucher", "src/brski/registrar/registrar_api.cpp:registrar_est_simpleenroll", "src/brski/masa/masa_api.cpp:masa_requestvoucher", "src/brski/http/httplib_wrapper.cpp:httplib_start"]}
{"id": "C109", "title": "The pieces in which a message arrives make no difference", "statement": "The reply of a server to a request, and the answer a client makes of a reply, depend on the bytes that arrive and on whether the connection ends in an orderly way, but not on how the network cuts the bytes into pieces.", "quantifier": "every sequence of bytes, every way to cut it into pieces, every end of the connection, all routes and handlers", "why_tests_cant": "local tests deliver messages in one piece", "anchors": ["src/brski/http/httplib.h:getline", "src/brski/http/httplib.h:read_headers", "src/brski/http/httplib.h:read_content", "src/brski/http/httplib.h:read_content_with_length", "src/brski/http/httplib.h:read_content_chunked", "src/brski/http/httplib.h:MultipartFormDataParser"]}
{"id": "C110", "title": "What the network cut off is not taken for a whole message", "statement": "When a connection ends with an error (not in the orderly way of TLS, or by a time limit) before a message is complete, a server refuses the request and a client reports an error; when there is an answer, it is the one to the whole message.", "quantifier": "every message, every place of the cut, every way in which it arrives", "why_tests_cant": "needs an attacker on the network who cuts connections at chosen places", "anchors": ["src/brski/http/httplib.h:read_content_without_length", "src/brski/http/httplib.h:read_content_with_length", "src/brski/http/httplib.h:SSLSocketStream::read"]}
{"id": "C111", "title": "A handler that ends with an exception is answered as an error of the server, and nothing else is affected", "statement": "When a handler of the registrar or the MASA ends with an exception, the client gets status 500 and a text in plain text; the other requests of the connection run the same handlers on the same content and are answered as if the handler had returned.", "quantifier": "every exception, every request, every connection and every pattern of exceptions", "why_tests_cant": "exceptions (exhausted memory, missing settings) have to be provoked inside the handlers", "anchors": ["src/brski/http/httplib_wrapper.cpp:set_exception_handler", "src/brski/http/httplib.h:Server::process_request", "src/brski/http/httplib_wrapper.cpp:set_error_handler"]}
{"id": "C112", "title": "Voucher requests in the threads of the pool do not disturb one another", "statement": "Whatever connections come to the MASA, whatever voucher requests they bring and however the threads of its pool move, no memory is used after its release, and every callback gets the certificate its own request has loaded.", "quantifier": "every number of processors, every sequence of connections and requests, every interleaving of the threads", "why_tests_cant": "the interleavings cannot be chosen in a test", "anchors": ["src/brski/http/httplib.h:ThreadPool", "src/brski/masa/masa_api.cpp:masa_requestvoucher", "src/brski/masa/masa_api.cpp:voucher_req_cb", "src/brski/masa/masa_server.cpp:masa_start"]}
{"id": "C113", "title": "Only a reply that reports success is used", "statement": "Whenever the pledge ends up with a certificate, every reply it has used on the way reported success: the answers to both voucher requests and to the enrolment had status 200. (202 asks the client to come back later, 3xx sends it elsewhere, 4xx and 5xx report errors.)", "quantifier": "every registrar, every reply, every configuration, every memory", "why_tests_cant": "only the statuses the own registrar sends are ever tested; a reply of 202 or 302 needs a registrar of another make", "anchors": ["src/brski/pledge/pledge_request.cpp:post_voucher_pledge_request", "src/brski/pledge/pledge_request.cpp:post_sign_cert"]}
{"id": "C114", "title": "Every request that has arrived is answered", "statement": "Up to five complete requests on one TLS connection, none of which asks to end it, are all answered once they have arrived, however TLS has divided them into records.", "quantifier": "every sequence of well-formed requests, every division into records, every server and handler", "why_tests_cant": "how bytes fall into records is decided by the library of the client; a test client that waits for each reply never shows the difference", "anchors": ["src/brski/http/httplib.h:keep_alive", "src/brski/http/httplib.h:process_server_socket_core", "src/brski/http/httplib.h:SSLSocketStream::read"]}
{"id": "C115", "title": "The number of a descriptor makes no difference", "statement": "Whatever descriptor the system has given to a connection, its requests get the same replies, and a client that falls silent during the handshake is given up.", "quantifier": "every descriptor, every content of the connection, every behaviour of the client during the handshake", "why_tests_cant": "a thousand connections have to be open before the difference shows", "anchors": ["src/brski/http/httplib.h:select_read", "src/brski/http/httplib.h:select_write", "src/brski/http/httplib.h:ssl_connect_or_accept_nonblocking", "src/brski/http/httplib.h:Server::process_request"]}
{"id": "C116", "title": "A request is sent over one connection only", "statement": "A POST request of the pledge or the registrar is sent over at most one connection.", "quantifier": "every request, every behaviour of the network during connecting, writing and reading, every server", "why_tests_cant": "the second connection is made only when a server closes the session at one particular moment", "anchors": ["src/brski/http/httplib.h:ClientImpl::send", "src/brski/http/httplib.h:ClientImpl::send_", "src/brski/http/httplib.h:ClientImpl::process_request", "src/brski/http/httplib.h:write_data", "src/brski/http/httplib_wrapper.cpp:httplib_post_request"]}
{"id": "C117", "title": "Every copy of a request is the request", "statement": "What a connection gets from a client is the request it was told to send, or the beginning of it.", "quantifier": "every request, every behaviour of the network, every connection made for the request", "why_tests_cant": "needs a request without body that is sent a second time", "anchors": ["src/brski/http/httplib.h:ClientImpl::write_request", "src/brski/http/httplib.h:ClientImpl::send", "src/brski/http/httplib.h:write_data"]}
{"id": "C118", "title": "A request leaves nothing behind in the client", "statement": "Whatever the network does, a POST request releases the context, the sockets, the sessions and the certificates it has acquired, each of them once, and uses none of them afterwards.", "quantifier": "every request, every behaviour of the network during connecting, writing and reading, with and without verification of the server", "why_tests_cant": "the leak happens inside the client on a path that needs two connections", "anchors": ["src/brski/http/httplib.h:SSLClient::initialize_ssl", "src/brski/http/httplib.h:ssl_new", "src/brski/http/httplib.h:SSLClient::~SSLClient", "src/brski/http/httplib.h:ClientImpl::send_", "src/brski/http/httplib_wrapper.cpp:httplib_post_request"]}
{"id": "C119", "title": "Every accepted client is served in the end", "statement": "When every thread that can go on is scheduled again and again, every client whose connection was accepted has been served at some later moment, whatever the other clients do and however many follow.", "quantifier": "every number of threads, every execution that goes on for ever, every order of accepting, serving and waking, every client", "why_tests_cant": "a statement about what happens in the end of executions without end; no test runs long enough", "anchors": ["src/brski/http/httplib.h:ThreadPool", "src/brski/http/httplib.h:ThreadPool::worker", "src/brski/http/httplib.h:Server::listen_internal"]}
{"id": "C120", "title": "A server that is stopped returns", "statement": "When every thread that can go on is scheduled again and again, a server that stops accepting returns at some later moment, and by then has served every client it accepted, whatever the clients do.", "quantifier": "every number of threads, every execution that goes on for ever, every moment at which the server stops", "why_tests_cant": "a statement about what happens in the end of executions without end; no test runs long enough", "anchors": ["src/brski/http/httplib.h:ThreadPool::shutdown", "src/brski/http/httplib.h:ThreadPool::worker", "src/brski/http/httplib.h:Server::listen_internal"]}
{"id": "C121", "title": "Opening a socket leaves nothing behind", "statement": "Opening a socket to connect or to listen is defined, and afterwards the process has the descriptors it had before and the one that is returned, each of the others closed once and never used while closed, with the list of addresses released.", "quantifier": "every list of addresses, every failure of the resolver, socket, fcntl, connect, select, bind and listen, every descriptor, every signal", "why_tests_cant": "combinations of failures of the system over lists of any length", "anchors": ["src/brski/http/httplib.h:create_socket", "src/brski/http/httplib.h:create_client_socket", "src/brski/http/httplib.h:wait_until_socket_is_ready", "src/brski/http/httplib.h:Server::create_server_socket"]}
{"id": "C122", "title": "A client connects to the first address that answers", "statement": "A client connects to the first address of the server at which its connection is accepted in time, reports an error exactly if there is none, and then says so.", "quantifier": "every list of addresses, every behaviour of the system and the other side at each of them, every descriptor, every signal", "why_tests_cant": "a thousand descriptors have to be open before the difference shows; lists of addresses of any length", "anchors": ["src/brski/http/httplib.h:create_client_socket", "src/brski/http/httplib.h:create_socket", "src/brski/http/httplib.h:wait_until_socket_is_ready"]}
{"id": "C123", "title": "Connecting ends in time", "statement": "A client is connected or has given up within the time limit for connections.", "quantifier": "every list of addresses, every behaviour at each of them, every sequence of interruptions by signals", "why_tests_cant": "takes minutes per address, and several unreachable addresses", "anchors": ["src/brski/http/httplib.h:wait_until_socket_is_ready", "src/brski/http/httplib.h:handle_EINTR", "src/brski/http/httplib.h:create_client_socket"]}
{"id": "C124", "title": "A port has one server", "statement": "A server that reports to listen does so at an address and port where no other program listens.", "quantifier": "every list of addresses of the server, every set of listening sockets of any users and options, every relation between addresses", "why_tests_cant": "needs several programs of several users on one machine", "anchors": ["src/brski/http/httplib.h:default_socket_options", "src/brski/http/httplib.h:Server::create_server_socket", "src/brski/http/httplib.h:create_socket"]}
{"id": "C125", "title": "A name leads to the server started under it", "statement": "A client that resolves a server's name to the addresses to which the server resolved it is connected to this server and no other.", "quantifier": "every list of addresses, every set of listening sockets of any users and options", "why_tests_cant": "needs other programs at some of the addresses", "anchors": ["src/brski/http/httplib.h:create_socket", "src/brski/http/httplib.h:Server::create_server_socket", "src/brski/http/httplib.h:create_client_socket"]}
{"id": "C126", "title": "Replies arrive whole and in order", "statement": "What a client has received on a connection is the beginning of the replies to its requests, in order, each whole before the next begins; only interim replies may be missing.", "quantifier": "every sequence of bytes a client sends, every behaviour of handlers, every sequence of results of waiting for the socket and of writing to the TLS session", "why_tests_cant": "needs a client that stops reading for seconds at chosen moments and then goes on", "anchors": ["src/brski/http/httplib.h:Server::write_response_core", "src/brski/http/httplib.h:write_data", "src/brski/http/httplib.h:SSLSocketStream::write", "src/brski/http/httplib.h:process_server_socket_core"]}
{"id": "C127", "title": "A client gets the reply to its request or an error", "statement": "Whatever happens while the reply to a request is sent, the client gets the status and body of this reply, or an error.", "quantifier": "every request a client of the project can send, every reply of a handler, every sequence of results of waiting for the socket and of writing to the TLS session", "why_tests_cant": "needs a writer that fails for one part of a reply and succeeds for the next", "anchors": ["src/brski/http/httplib.h:Server::write_response_core", "src/brski/http/httplib.h:SSLSocketStream::write", "src/brski/http/httplib.h:ClientImpl::read_response_line"]}
{"id": "C128", "title": "A running server can be stopped", "statement": "Whenever a server is stopped, before, while or after it listens, nothing undefined happens and its listening socket is closed at most once.", "quantifier": "every interleaving of the thread that listens, the threads that serve clients and the thread that stops the server, every number of threads and clients", "why_tests_cant": "a race between threads; what is undefined mostly looks as if it worked", "anchors": ["src/brski/registrar/registrar_server.cpp:registrar_stop", "src/brski/masa/masa_server.cpp:masa_stop", "src/brski/http/httplib_wrapper.cpp:httplib_stop", "src/brski/http/httplib.h:Server::stop", "src/brski/http/httplib.h:Server::listen_internal"]}
{"id": "C129", "title": "A connection leaves nothing behind in a server", "statement": "Whatever a client does, its TLS session is created at most once, used only between creation and release, freed once and under the lock, requests are handled only after a complete handshake, and in the end the socket is closed once and the lock is free.", "quantifier": "every sequence of results of the handshake, of waiting and of requests", "why_tests_cant": "all ways in which a handshake or a connection can break off", "anchors": ["src/brski/http/httplib.h:SSLServer::process_and_close_socket", "src/brski/http/httplib.h:ssl_new", "src/brski/http/httplib.h:ssl_delete", "src/brski/http/httplib.h:ssl_connect_or_accept_nonblocking", "src/brski/http/httplib.h:process_server_socket_core"]}
{"id": "C130", "title": "A handshake ends in time", "statement": "A client that does not complete the TLS handshake within the time limit is let go.", "quantifier": "every sequence of waits during the handshake", "why_tests_cant": "unbounded sequences of messages of a client that is slow on purpose", "anchors": ["src/brski/http/httplib.h:ssl_connect_or_accept_nonblocking", "src/brski/http/httplib.h:ssl_new"]}
{"id": "C131", "title": "Idle connections are closed", "statement": "A connection waits for the next request exactly as long as five seconds without one are not over, handles at most five requests and none after the listening socket is closed; so it lasts no longer than its handshake, its requests and five times this limit.", "quantifier": "every sequence of results and durations of waiting, every number of requests and their durations", "why_tests_cant": "all sequences of waits of any length", "anchors": ["src/brski/http/httplib.h:keep_alive", "src/brski/http/httplib.h:process_server_socket_core"]}
{"id": "C132", "title": "Scanning a message stays within its bounds", "statement": "The functions that look at a message byte by byte (trimming, splitting at a delimiter with or without limit, reading hexadecimal digits, writing UTF-8, percent decoding, reading a header field, reading a line into an array of fixed size and from there into a string, formatting a line into an array that is doubled) never access a byte outside their text or array, never read one that was not written, never overflow an int and never fail an assertion; and what they compute is what a description without indices says: the stripped parts, the decoded text, the field, the line up to and including its line feed with a NUL behind it, the whole formatted text.", "quantifier": "every text, delimiter, array of at least two bytes, previous state of the reader and way in which the connection ends; texts shorter than 2^64-1 (splitting) and 2^31 (formatting)", "why_tests_cant": "texts of any length and content", "anchors": ["src/brski/http/httplib.h:trim", "src/brski/http/httplib.h:split", "src/brski/http/httplib.h:decode_url", "src/brski/http/httplib.h:to_utf8", "src/brski/http/httplib.h:parse_header", "src/brski/http/httplib.h:stream_line_reader", "src/brski/http/httplib.h:Stream::write_format"]}
{"id": "C133", "title": "The fields of a form are read back", "statement": "The fields of a form or query, written with the form encoding, are read back as they were written, in their order.", "quantifier": "every list of fields with non-empty names and arbitrary values", "why_tests_cant": "lists of any length, all bytes", "anchors": ["src/brski/http/httplib.h:parse_query_text", "src/brski/http/httplib.h:decode_url"]}
{"id": "C134", "title": "A certificate is taken for a host only if it names it", "statement": "The check whether a certificate is for a host is defined for every certificate, and accepts one only if it has the address of the host, a host name that stands for the host (RFC 2818) or, without any host name, such a common name.", "quantifier": "every host (name or address) and every certificate with any names", "why_tests_cant": "all certificates and hosts", "anchors": ["src/brski/http/httplib.h:SSLClient::verify_host", "src/brski/http/httplib.h:SSLClient::check_host_name"]}
{"id": "C135", "title": "Taking multipart content apart stays within the buffer", "statement": "Whatever bytes arrive as multipart content, in whatever pieces, the parser never accesses a byte outside its buffer, its loops end, what is in use of the buffer afterwards is the end of what has arrived, and the content of every part is a contiguous piece of what has arrived.", "quantifier": "every boundary and every sequence of pieces, correct form or not, of less than 2^64-1 bytes together", "why_tests_cant": "all bytes in all pieces", "anchors": ["src/brski/http/httplib.h:MultipartFormDataParser", "src/brski/http/httplib.h:parse_disposition_params", "src/brski/http/httplib.h:Server::read_content"]}
{"id": "C136", "title": "The parts of a form are received as they were sent", "statement": "The parts of a form written as RFC 7578 says (names and file names in quotes, types, contents) are received in their order with the names, types and contents with which they were sent, in whatever pieces the form arrives and whatever is before and behind it.", "quantifier": "every boundary, every list of up to 1024 parts with any names without quotes and line ends, any type and any content without the boundary, every division into pieces", "why_tests_cant": "all names and all divisions into pieces", "anchors": ["src/brski/http/httplib.h:MultipartFormDataParser", "src/brski/http/httplib.h:parse_disposition_params"]}
{"id": "C137", "title": "A read gives what arrives", "statement": "Every read from a TLS connection gives the next bytes that the other side has sent, in order and without loss or repetition, or reports the end exactly where the other side has announced it, or fails exactly where five seconds have passed without anything, the connection has broken, or a thousand tries have brought no data; so that a program that reads depends on the records only through the sizes of the pieces.", "quantifier": "every sequence of records, other messages, silences, ends and errors, every size of the reads, every program that reads", "why_tests_cant": "all sequences of records and all sizes of reads", "anchors": ["src/brski/http/httplib.h:SSLSocketStream::read", "src/brski/http/httplib.h:SSLSocketStream::is_readable"]}
{"id": "C138", "title": "A line of a request is read in time", "statement": "There is a time within which a line of a request has been read or given up, whatever the client sends and however slowly.", "quantifier": "every client, every sequence of records and delays up to the limits of the waits", "why_tests_cant": "the clients that take longest; each attempt would take hours", "anchors": ["src/brski/http/httplib.h:stream_line_reader::getline", "src/brski/http/httplib.h:SSLSocketStream::read"]}
{"id": "C139", "title": "A pause does not turn content into requests", "statement": "When a client pauses while it sends its requests, every handler that runs has still been asked for by the client and sees the content the client has sent to it.", "quantifier": "every list of requests, every division into parts with pauses between them, every division of the parts into pieces, every set of routes", "why_tests_cant": "all positions of pauses", "anchors": ["src/brski/http/httplib.h:Server::process_request", "src/brski/http/httplib.h:process_server_socket_core"]}
{"id": "C140", "title": "The content of a request ends where its fields say", "statement": "No handler runs for a request whose length is not clear (lengths that differ, a length that is no number, a coding that does not end with chunked); with a length, or several that agree, the handler sees exactly that many bytes and the rest is left for the next request; a coding overrides all lengths (RFC 9112, section 6.3).", "quantifier": "every request of a method with content, every list of fields, every content and whatever follows it, every set of routes and handlers", "why_tests_cant": "all combinations of fields and all texts of lengths", "anchors": ["src/brski/http/httplib.h:read_content", "src/brski/http/httplib.h:get_header_value_u64", "src/brski/http/httplib.h:is_chunked_transfer_encoding", "src/brski/http/httplib.h:Server::process_request"]}
{"id": "C141", "title": "What a request makes the server keep is limited", "statement": "There is a size that what a handler is given of a request, its fields and its content, never exceeds, whatever the client sends.", "quantifier": "every sequence of bytes that a client may send, every set of routes and handlers", "why_tests_cant": "arbitrarily large requests", "anchors": ["src/brski/http/httplib.h:read_headers", "src/brski/http/httplib.h:read_content", "src/brski/http/httplib.h:Server::process_request"]}
{"id": "C142", "title": "Interim replies are skipped", "statement": "A client that gets interim replies (status 1xx, with any fields) before the reply gives its caller what it would have given without them.", "quantifier": "every number of valid interim replies, every sequence of bytes that follows", "why_tests_cant": "every status from 100 to 199 with any reason and fields, any number of them, any reply", "anchors": ["src/brski/http/httplib.h:ClientImpl::read_response_line", "src/brski/http/httplib.h:ClientImpl::process_request"]}
{"id": "C143", "title": "What a reply makes the client keep is limited", "statement": "There is a size that the body a request gives to its caller never exceeds, whatever the servers send.", "quantifier": "every request, every behaviour of the servers the client reaches", "why_tests_cant": "arbitrarily large replies", "anchors": ["src/brski/http/httplib.h:ClientImpl::process_request", "src/brski/http/httplib.h:read_content", "src/brski/http/httplib_wrapper.cpp:httplib_post_request"]}
{"id": "C144", "title": "The enrolment log tells which enrolments have taken place", "statement": "Two histories of requests that leave the same enrolment log consist of the same enrolments: the same clients, issued certificates and times, in the same order.", "quantifier": "every two lists of requests, every certificate of a client, every earlier content of the log", "why_tests_cant": "all serial numbers a certificate can have", "anchors": ["src/brski/registrar/registrar_api.cpp:save_to_log", "src/brski/registrar/registrar_api.cpp:registrar_est_simpleenroll"]}
{"id": "C145", "title": "Each line of the log is a message of the program", "statement": "Whatever clients send to the handlers that are not implemented, the log has as many lines as there are messages.", "quantifier": "every list of requests to any handlers, every content, every zone and time", "why_tests_cant": "all contents of requests", "anchors": ["src/brski/registrar/registrar_api.cpp:registrar_voucher_status", "src/brski/masa/masa_api.cpp:masa_voucher_status", "src/utils/log.c:print_to"]}
{"id": "C146", "title": "A handler is told the addresses of the connection", "statement": "Under the names REMOTE_ADDR, REMOTE_PORT, LOCAL_ADDR and LOCAL_PORT a handler finds the addresses and ports of both ends of the connection, whatever fields the client sends.", "quantifier": "every address of the client and of the server, every list of fields in the header and in the trailer of a request", "why_tests_cant": "all lists of fields", "anchors": ["src/brski/http/httplib.h:Server::process_request", "src/brski/http/httplib.h:get_remote_ip_and_port", "src/brski/http/httplib.h:get_ip_and_port", "src/brski/http/httplib_wrapper.cpp:get_request_header"]}
{"id": "C147", "title": "Revoked certificates are refused", "statement": "No message is accepted of whose signers one is named by a revocation list in the trust list it is verified with.", "quantifier": "every message, every trust list with any certificates and revocation lists, every outcome of allocations, every library that behaves as documented", "why_tests_cant": "all combinations of lists; a test needs revocation lists, of which there are none in the test suite", "anchors": ["src/voucher/crypto_ossl.c:get_certificate_store", "src/voucher/crypto_ossl.c:crypto_verify_cms", "src/voucher/crypto_ossl.c:crypto_verify_cert", "src/brski/config.c:load_cert_files"]}
{"id": "C148", "title": "Issued vouchers satisfy the constraints of RFC 8366", "statement": "Every voucher the MASA issues has a date of creation, an assertion, a serial number and a pinned certificate, and no date of expiry if it has a nonce.", "quantifier": "every request the MASA accepts, every configured date, every callback, everybody who verifies and reads the voucher", "why_tests_cant": "all requests; the tests do not read the issued voucher back against the schema", "anchors": ["src/voucher/request.c:sign_masa_pledge_voucher", "src/brski/masa/masa_api.cpp:masa_requestvoucher"]}
{"id": "C149", "title": "A voucher pins the domain of the registrar that asked", "statement": "The certificate an issued voucher pins is that of one of the signers of the registrar's request, or certifies one.", "quantifier": "every configuration of the MASA, every request it accepts, everybody who verifies and reads the voucher, every library that behaves as documented", "why_tests_cant": "all registrars a MASA trusts; the tests have a single registrar whose certificate is the configured one", "anchors": ["src/brski/masa/masa_api.cpp:voucher_req_cb", "src/brski/masa/masa_api.cpp:masa_requestvoucher", "src/voucher/request.c:sign_masa_pledge_voucher"]}
{"id": "C150", "title": "A voucher is only issued for the device that asked", "statement": "An issued voucher names the serial number in the certificate with which the enclosed request of the pledge was signed.", "quantifier": "every configuration of the MASA, every request it accepts, every way of telling a serial number from a certificate, everybody who verifies and reads the voucher", "why_tests_cant": "all pairs of devices; the tests have a single device", "anchors": ["src/voucher/request.c:sign_masa_pledge_voucher", "src/voucher/request.c:sign_voucher_request", "src/brski/masa/masa_api.cpp:masa_requestvoucher"]}
{"id": "C151", "title": "A request is passed on for the device that signed it", "statement": "A request of a pledge that the registrar passes on to the MASA is signed with the certificate of the client that sent it.", "quantifier": "every configuration of the registrar, every certificate of the client and every way of telling serial number and issuer from it, every body", "why_tests_cant": "all pairs of a client and a signer; in the tests both are one", "anchors": ["src/brski/registrar/registrar_api.cpp:registrar_requestvoucher", "src/voucher/request.c:sign_voucher_request"]}
{"id": "C152", "title": "Vouchers tell devices of different makers apart", "statement": "Vouchers issued upon requests that name different issuers of the device's certificate (idevid-issuer, which is there to make the serial number unique) are different.", "quantifier": "every pair of requests the MASA accepts, every configured date, every callback, everybody who verifies and reads the vouchers", "why_tests_cant": "all pairs of requests; a test needs two makers with one serial number", "anchors": ["src/voucher/request.c:sign_masa_pledge_voucher", "src/voucher/request.c:sign_voucher_request"]}
