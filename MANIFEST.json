{
 "claims": [
  {
   "property": "C01",
   "status": "proved",
   "theorems": [
    "Brski.Props.C01_roundtrip",
    "Brski.Props.C01_empty_not_recovered"
   ],
   "note": "all non-empty arrays, all allocator behaviours; the empty array is provably not recovered"
  },
  {
   "property": "C02",
   "status": "proved",
   "theorems": [
    "Brski.Props.C02_encode_rfc4648",
    "Brski.Props.C02_encode_any_alloc"
   ],
   "note": "equality with an independent bit-level RFC 4648 specification, incl. NUL terminator and reported length"
  },
  {
   "property": "C03",
   "status": "proved",
   "theorems": [
    "Brski.Props.C03_encode_safe",
    "Brski.Props.C03_decode_safe"
   ],
   "note": "bounds-checked memory model; decoder input < 2^63 bytes (C object size limit)"
  },
  {
   "property": "C04",
   "status": "proved",
   "theorems": [
    "Brski.Props.C04_ignores_foreign",
    "Brski.Props.C04_insert",
    "Brski.Props.C04_implied_padding"
   ],
   "note": ""
  },
  {
   "property": "C05",
   "status": "partial",
   "theorems": [
    "Brski.Props.C05_violated",
    "Brski.Props.C05_partial",
    "Brski.Props.C05_exact",
    "Brski.Props.C05_dangling"
   ],
   "note": "violated: text with >=3 (implied) padding characters leaves a dangling pointer; exact: this happens if and only if the first padded group has three or four padding characters, every other failure gives NULL"
  },
  {
   "property": "C06",
   "status": "partial",
   "theorems": [
    "Brski.Props.C06_exact",
    "Brski.Props.C06_violated",
    "Brski.Props.C06_partial",
    "Brski.Props.C06_roundtrip",
    "Brski.Props.C06_iso_defined",
    "Brski.Props.C06_iso_ub_witness"
   ],
   "note": "violated: a text with a NUL inside its length is accepted; bytes >= 0x80 are ISO C undefined (tolower); partial: NUL-free text; exact: the only further texts accepted are the spellings of \"true\" with one NUL behind them"
  },
  {
   "property": "C07",
   "status": "proved",
   "theorems": [
    "Brski.Props.C07_time_roundtrip",
    "Brski.Props.C07_weekday",
    "Brski.Props.C07_text_is_rfc3339"
   ],
   "note": "glibc strftime/strptime semantics for the one format are part of the trusted base"
  },
  {
   "property": "C08",
   "status": "partial",
   "theorems": [
    "Brski.Props.C08_violated",
    "Brski.Props.C08_trailing_accepted",
    "Brski.Props.C08_partial",
    "Brski.Props.C08_shape_partial",
    "Brski.Props.C08_exact",
    "Brski.Props.C08_refused"
   ],
   "note": "violated: 31 February and trailing characters are accepted; partial: field ranges, and every accepted text begins with six numbers of one or more digits with the separators of the format up to the zone letter Z; exact: which texts are accepted with which numbers"
  },
  {
   "property": "C09",
   "status": "proved",
   "theorems": [
    "Brski.Props.C09_typed_record",
    "Brski.Props.C09_independence",
    "Brski.Props.C09_step",
    "Brski.Props.C09_memory",
    "Brski.Props.C09_memory_any"
   ],
   "note": "the memory of the block-heap model holds the records (every history with every allocation outcome, both ways); refinement to an abstract typed record for all call histories within the documented contract; frame part for all arguments and allocation outcomes"
  },
  {
   "property": "C10",
   "status": "partial",
   "theorems": [
    "Brski.Props.C10_exact",
    "Brski.Props.C10_violated",
    "Brski.Props.C10_violated_null_data",
    "Brski.Props.C10_partial"
   ],
   "note": "violated on memory exhaustion and for arrays with a length but no data; partial: all other failures; exact: which calls fail and reset the attribute"
  },
  {
   "property": "C11",
   "status": "proved",
   "theorems": [
    "Brski.Props.C11_values",
    "Brski.Props.C11_values_api"
   ],
   "note": "every mix of attribute calls (any arguments, any allocation outcome) and parsing of arbitrary text; jsmn is modelled from general knowledge of the library, not compared with its source"
  },
  {
   "property": "C12",
   "status": "partial",
   "theorems": [
    "Brski.Props.C12_violated",
    "Brski.Props.C12_partial_no_double_free",
    "Brski.Props.C12_partial_calls_defined",
    "Brski.Props.C12_partial_no_leak",
    "Brski.Props.C12_exact",
    "Brski.Props.C12_exact_any"
   ],
   "note": "violated: overwriting an attribute leaks the old block; no double free for all histories; no leak when attributes are only set while empty; exact: after any history one block is left for every pointer overwritten, and nothing else"
  },
  {
   "property": "C13",
   "status": "proved",
   "theorems": [
    "Brski.Props.C13_caller_cannot_change",
    "Brski.Props.C13_own_copy"
   ],
   "note": "block heap with caller-owned blocks"
  },
  {
   "property": "C14",
   "status": "proved",
   "theorems": [
    "Brski.Props.C14_json_round_trip"
   ],
   "note": "memory available; text below 2^31 bytes (int token positions); different C libraries allowed for four-digit years; jsmn is modelled from general knowledge of the library, not compared with its source"
  },
  {
   "property": "C15",
   "status": "partial",
   "theorems": [
    "Brski.Props.C15_violated",
    "Brski.Props.C15_violated_empty_array",
    "Brski.Props.C15_partial"
   ],
   "note": "violated: quotes in the serial number are not escaped (attribute injection); empty byte strings are refused on reading; partial: byte strings are not empty and the serial number is the text of a JSON string (escapes included); jsmn is modelled from general knowledge of the library, not compared with its source"
  },
  {
   "property": "C16",
   "status": "partial",
   "theorems": [
    "Brski.Props.C16_violated",
    "Brski.Props.C16_partial"
   ],
   "note": "violated when the voucher allocation fails (NULL dereference); partial: all buffers and all other allocation outcomes; jsmn is modelled from general knowledge of the library, not compared with its source"
  },
  {
   "property": "C17",
   "status": "partial",
   "theorems": [
    "Brski.Props.C17_violated",
    "Brski.Props.C17_violated_escape",
    "Brski.Props.C17_partial",
    "Brski.Props.C17_partial_known",
    "Brski.Props.C17_partial_object"
   ],
   "note": "violated: the inside of nested values is read in place of later members, escapes are not resolved; partial: exact meaning of flat documents with any white space and any string text (escapes included), and every accepted buffer is an object; jsmn is modelled from general knowledge of the library, not compared with its source"
  },
  {
   "property": "C18",
   "status": "partial",
   "theorems": [
    "Brski.Props.C18_exact",
    "Brski.Props.C18_violated",
    "Brski.Props.C18_violated_value",
    "Brski.Props.C18_partial",
    "Brski.Props.C18_partial_refused"
   ],
   "note": "violated: prefixes (even the empty name) and value strings match; partial: non-prefixes are refused; exact: a flat document with a prefix is treated as the one with the full name; jsmn is modelled from general knowledge of the library, not compared with its source"
  },
  {
   "property": "C19",
   "status": "proved",
   "theorems": [
    "Brski.Props.C19_budget",
    "Brski.Props.C19_flat",
    "Brski.Props.C19_vouchers_fit"
   ],
   "note": "jsmn is modelled from general knowledge of the library, not compared with its source"
  },
  {
   "property": "C20",
   "status": "proved",
   "theorems": [
    "Brski.Props.C20_serialised_form",
    "Brski.Props.C20_serialisation_succeeds"
   ],
   "note": "jsmn is modelled from general knowledge of the library, not compared with its source"
  },
  {
   "property": "C21",
   "status": "proved",
   "theorems": [
    "Brski.Props.C21_join_exact"
   ],
   "note": ""
  },
  {
   "property": "C22",
   "status": "proved",
   "theorems": [
    "Brski.Props.C22_fifo"
   ],
   "note": "both list kinds, both loop macros; element allocation may fail; int counter of dl_list_len below 2^31"
  },
  {
   "property": "C23",
   "status": "proved",
   "theorems": [
    "Brski.Props.C23_free",
    "Brski.Props.C23_free_null"
   ],
   "note": "whole memory restored exactly, for every history of pushes"
  },
  {
   "property": "C24",
   "status": "partial",
   "theorems": [
    "Brski.Props.C24_violated",
    "Brski.Props.C24_violated_keyvalue",
    "Brski.Props.C24_partial"
   ],
   "note": "violated: when the copy cannot be allocated the half-built element is unlinked through NULL pointers; partial: exact characterisation of the undefined cases, element allocation failure harmless"
  },
  {
   "property": "C25",
   "status": "proved",
   "theorems": [
    "Brski.Props.C25_compare",
    "Brski.Props.C25_missing",
    "Brski.Props.C25_equivalence"
   ],
   "note": "memcmp with length 0 is taken as defined also for NULL pointers"
  },
  {
   "property": "C26",
   "status": "proved",
   "theorems": [
    "Brski.Props.C26_pledge_request",
    "Brski.Props.C26_request_is_made"
   ],
   "note": "signing is uninterpreted (OpenSSL); created_on must be non-NULL; from 2 GiB on only a beginning of the text is signed (Handed in the specification, see C98); second theorem: with memory, valid arguments and working signing the request is made"
  },
  {
   "property": "C27",
   "status": "proved",
   "theorems": [
    "Brski.Props.C27_vetting",
    "Brski.Props.C27_defined"
   ],
   "note": "every verification scheme, allocation outcome and argument; equality of proximity certificate is equality of content; jsmn is modelled from general knowledge of the library, not compared with its source"
  },
  {
   "property": "C28",
   "status": "partial",
   "theorems": [
    "Brski.Props.C28_violated",
    "Brski.Props.C28_always_undefined",
    "Brski.Props.C28_partial"
   ],
   "note": "violated: every authentic pledge request without a serial number makes the registrar call strcmp(NULL); partial: requests with a serial number; jsmn is modelled from general knowledge of the library, not compared with its source"
  },
  {
   "property": "C29",
   "status": "proved",
   "theorems": [
    "Brski.Props.C29_consistent",
    "Brski.Props.C29_defined"
   ],
   "note": "the application callback is an arbitrary function meeting its contract; what is signed is the whole text below 2 GiB (Handed in the specification, see C98); jsmn is modelled from general knowledge of the library, not compared with its source"
  },
  {
   "property": "C30",
   "status": "partial",
   "theorems": [
    "Brski.Props.C30_violated",
    "Brski.Props.C30_partial",
    "Brski.Props.C30_exact"
   ],
   "note": "violated: the nonce is taken from the registrar's outer request; partial: requests made by the honest registrar function; exact: the nonce is that of the pledge iff the registrar wrote it; jsmn is modelled from general knowledge of the library, not compared with its source"
  },
  {
   "property": "C31",
   "status": "partial",
   "theorems": [
    "Brski.Props.C31_violated",
    "Brski.Props.C31_partial",
    "Brski.Props.C31_blind"
   ],
   "note": "violated: neither assertion nor proximity certificate are looked at; partial: requests made by the honest registrar function; blind: the answer depends on serial number, outer nonce and signers only; jsmn is modelled from general knowledge of the library, not compared with its source"
  },
  {
   "property": "C32",
   "status": "proved",
   "theorems": [
    "Brski.Props.C32_acceptance",
    "Brski.Props.C32_defined",
    "Brski.Props.C32_complete",
    "Brski.Props.C32_null_registrar"
   ],
   "note": "soundness for every allocation outcome, definedness, and completeness; precondition: a non-NULL registrar certificate (sharp); jsmn is modelled from general knowledge of the library, not compared with its source"
  },
  {
   "property": "C33",
   "status": "partial",
   "theorems": [
    "Brski.Props.C33_violated",
    "Brski.Props.C33_any_registrar",
    "Brski.Props.C33_partial",
    "Brski.Props.C33_exact"
   ],
   "note": "violated: without a domain store every decodable registrar certificate is accepted (documented X509_build_chain behaviour); partial: chain to the domain store; exact without a store: acceptable and both certificates decodable; jsmn is modelled from general knowledge of the library, not compared with its source"
  },
  {
   "property": "C34",
   "status": "partial",
   "theorems": [
    "Brski.Props.C34_violated",
    "Brski.Props.C34_expiry_ignored",
    "Brski.Props.C34_partial",
    "Brski.Props.C34_blind"
   ],
   "note": "violated: expires-on is never consulted; blind: the decision depends on nothing in an authentic voucher but serial number, nonce and pinned certificate; jsmn is modelled from general knowledge of the library, not compared with its source"
  },
  {
   "property": "C35",
   "status": "proved",
   "theorems": [
    "Brski.Props.C35_honest_run"
   ],
   "note": "no allocation failure, working keys, ordinary serial numbers; jsmn is modelled from general knowledge of the library, not compared with its source"
  },
  {
   "property": "C36",
   "status": "partial",
   "theorems": [
    "Brski.Props.C36_violated",
    "Brski.Props.C36_partial",
    "Brski.Props.C36_honest_pledges"
   ],
   "note": "violated: a serial number with quotes, read from a bare JSON value, is written back unescaped and injects a nonce; partial: answered requests whose serial numbers are texts of JSON strings (escapes included); nothing is missing when pledge signatures are unforgeable and devices have such serial numbers; jsmn is modelled from general knowledge of the library, not compared with its source"
  },
  {
   "property": "C37",
   "status": "partial",
   "theorems": [
    "Brski.Props.C37_violated",
    "Brski.Props.C37_no_store",
    "Brski.Props.C37_partial",
    "Brski.Props.C37_exact"
   ],
   "note": "violated: without a trust store any valid signature is accepted; partial: with a store; exact: signature valid, and chain if a list is given"
  },
  {
   "property": "C38",
   "status": "proved",
   "theorems": [
    "Brski.Props.C38_verify_cms",
    "Brski.Props.C38_verify_cert",
    "Brski.Props.C38_sign"
   ],
   "note": ""
  },
  {
   "property": "C39",
   "status": "partial",
   "theorems": [
    "Brski.Props.C39_violated",
    "Brski.Props.C39_partial",
    "Brski.Props.C39_partial_refused",
    "Brski.Props.C39_partial_forwards"
   ],
   "note": "violated: a MASA status of 400 or more gives 200 with an empty body; partial: every answer is characterised, and what the MASA answers below 400 is passed on; the HTTP transport is a function from body to answer; jsmn is modelled from general knowledge of the library, not compared with its source"
  },
  {
   "property": "C40",
   "status": "proved",
   "theorems": [
    "Brski.Props.C40_answer",
    "Brski.Props.C40_issued",
    "Brski.Props.C40_reply"
   ],
   "note": "configuration files are given by their content; memory suffices for the second and third theorem; jsmn is modelled from general knowledge of the library, not compared with its source"
  },
  {
   "property": "C41",
   "status": "partial",
   "theorems": [
    "Brski.Props.C41_violated",
    "Brski.Props.C41_violated_each",
    "Brski.Props.C41_violated_masa",
    "Brski.Props.C41_masa_partial",
    "Brski.Props.C41_registrar_partial",
    "Brski.Props.C41_enroll_partial"
   ],
   "note": "violated by the body A at all three endpoints (double free); partial: exactly the bodies that are not badly padded are handled safely (complete configuration, see C43, C28, C107); jsmn is modelled from general knowledge of the library, not compared with its source"
  },
  {
   "property": "C42",
   "status": "partial",
   "theorems": [
    "Brski.Props.C42_violated",
    "Brski.Props.C42_violated_certificate",
    "Brski.Props.C42_partial",
    "Brski.Props.C42_partial_serial",
    "Brski.Props.C42_partial_history",
    "Brski.Props.C42_violated_missing",
    "Brski.Props.C42_partial_missing"
   ],
   "note": "violated by two overlapping requests (double free, foreign certificate); partial: a complete schedule is defined iff the requests do not overlap, then each pins its own certificate and nothing leaks; a request whose certificate cannot be read takes another's away and leaves its block behind, but does no harm when requests come one after another; accesses are atomic in this model; jsmn is modelled from general knowledge of the library, not compared with its source"
  },
  {
   "property": "C43",
   "status": "partial",
   "theorems": [
    "Brski.Props.C43_violated",
    "Brski.Props.C43_partial",
    "Brski.Props.C43_no_list"
   ],
   "note": "violated: when a file cannot be loaded the caller is left with a pointer to the released list (its callers release it again); partial: success gives all certificates in order, failure leaves the memory as it was"
  },
  {
   "property": "C44",
   "status": "partial",
   "theorems": [
    "Brski.Props.C44_violated",
    "Brski.Props.C44_exact",
    "Brski.Props.C44_partial"
   ],
   "note": "violated: a repeated key yields copies of its first value; exact characterisation of what is loaded; partial: keys whose entries agree; minIni is modelled from general knowledge of the library, not compared with its source"
  },
  {
   "property": "C45",
   "status": "partial",
   "theorems": [
    "Brski.Props.C45_violated",
    "Brski.Props.C45_partial"
   ],
   "note": "violated: memory exhaustion inside a list load leads to a double free of the list; partial: all other allocation failures, any number of releases; minIni is modelled from general knowledge of the library, not compared with its source"
  },
  {
   "property": "C46",
   "status": "partial",
   "theorems": [
    "Brski.Props.C46_violated",
    "Brski.Props.C46_violated_path",
    "Brski.Props.C46_violated_method",
    "Brski.Props.C46_partial",
    "Brski.Props.C46_partial_dot",
    "Brski.Props.C46_partial_reachable"
   ],
   "note": "violated: the dot of /.well-known is a regular expression operator and HEAD runs the GET handlers; partial: exact characterisation of the pairs that reach a handler"
  },
  {
   "property": "C47",
   "status": "partial",
   "theorems": [
    "Brski.Props.C47_violated",
    "Brski.Props.C47_violated_value",
    "Brski.Props.C47_partial",
    "Brski.Props.C47_partial_value",
    "Brski.Props.C47_ignored"
   ],
   "note": "violated: names that differ in case stay separate keys and percent signs in values are decoded; partial: exact content of the map"
  },
  {
   "property": "C48",
   "status": "partial",
   "theorems": [
    "Brski.Props.C48_violated",
    "Brski.Props.C48_violated_overrun",
    "Brski.Props.C48_partial"
   ],
   "note": "violated: 4096 or more bytes are written past the buffer; partial: exactly the inputs shorter than 4096 bytes are read and kept"
  },
  {
   "property": "C49",
   "status": "partial",
   "theorems": [
    "Brski.Props.C49_violated",
    "Brski.Props.C49_violated_count",
    "Brski.Props.C49_violated_empty",
    "Brski.Props.C49_partial",
    "Brski.Props.C49_partial_exact"
   ],
   "note": "violated: count wrong on truncation with even size, stale text without data; partial: exact text, and exactly when the count is right"
  },
  {
   "property": "C50",
   "status": "partial",
   "theorems": [
    "Brski.Props.C50_violated",
    "Brski.Props.C50_partial",
    "Brski.Props.C50_accepted",
    "Brski.Props.C50_refused",
    "Brski.Props.C50_port",
    "Brski.Props.C50_overrides",
    "Brski.Props.C50_effective"
   ],
   "note": "violated: an unknown label ends in the undefined help of C65 instead of a refusal; partial: exact characterisation of accepted command lines and of the overrides, release of the configuration; glibc getopt; certificate lists within the limits of C45; minIni is modelled from general knowledge of the library, not compared with its source"
  },
  {
   "property": "C51",
   "status": "partial",
   "theorems": [
    "Brski.Props.C51_violated",
    "Brski.Props.C51_violated_confusion",
    "Brski.Props.C51_partial",
    "Brski.Props.C51_partial_exact",
    "Brski.Props.C51_list",
    "Brski.Props.C51_order",
    "Brski.Props.C51_number"
   ],
   "note": "violated: a NUL inside the value ends the serial number, so another certificate can pass for a pledge; partial: exact result (value up to a NUL), list content and order, no leak; allocation failures as far as C24 allows"
  },
  {
   "property": "C52",
   "status": "partial",
   "theorems": [
    "Brski.Props.C52_violated",
    "Brski.Props.C52_violated_strlcpy",
    "Brski.Props.C52_violated_strndup",
    "Brski.Props.C52_violated_realloc",
    "Brski.Props.C52_partial_strlcpy",
    "Brski.Props.C52_strnlen",
    "Brski.Props.C52_partial_strndup",
    "Brski.Props.C52_strdup",
    "Brski.Props.C52_memdup",
    "Brski.Props.C52_partial_realloc"
   ],
   "note": "violated at the edges (size 0, SIZE_MAX, zero product); partial: every other size"
  },
  {
   "property": "C53",
   "status": "partial",
   "theorems": [
    "Brski.Props.C53_violated",
    "Brski.Props.C53_partial",
    "Brski.Props.C53_partial_exact"
   ],
   "note": "violated in every zone with a non-zero offset; partial: the text denotes the instant exactly when the offset is zero; years 1 to 9999"
  },
  {
   "property": "C54",
   "status": "partial",
   "theorems": [
    "Brski.Props.C54_violated",
    "Brski.Props.C54_two_certificates",
    "Brski.Props.C54_partial",
    "Brski.Props.C54_exact"
   ],
   "note": "violated: the two connections may end at different servers; partial: when both present the same certificate the request names the one the voucher is checked against; faithful signatures, ordinary sizes; exact: iff both connections present the same certificate; jsmn is modelled from general knowledge of the library, not compared with its source"
  },
  {
   "property": "C55",
   "status": "proved",
   "theorems": [
    "Brski.Props.C55_filter",
    "Brski.Props.C55_any_time",
    "Brski.Props.C55_no_interleaving",
    "Brski.Props.C55_release",
    "Brski.Props.C55_progress",
    "Brski.Props.C55_defined",
    "Brski.Props.C55_stamp",
    "Brski.Props.C55_line"
   ],
   "note": "settings fixed while threads run; the lock function is set (needed: C55_lock_needed); levels 0 to 4 and years 1000 to 9999 for definedness (sharp: C55_level_overrun, C55_stamp_overrun)"
  },
  {
   "property": "C56",
   "status": "partial",
   "theorems": [
    "Brski.Props.C56_violated",
    "Brski.Props.C56_partial",
    "Brski.Props.C56_history_partial",
    "Brski.Props.C56_unlogged",
    "Brski.Props.C56_unlogged_issued"
   ],
   "note": "violated: a newline in a certificate's serial number starts a new line; partial: serial numbers without newline, readable certificates, requests served one after another"
  },
  {
   "property": "C57",
   "status": "partial",
   "theorems": [
    "Brski.Props.C57_violated",
    "Brski.Props.C57_violated_trailing",
    "Brski.Props.C57_partial",
    "Brski.Props.C57_exact"
   ],
   "note": "violated: padding inside a group is accepted, data after padding ignored; exact: which texts are accepted with which result; partial: unpadded complete groups"
  },
  {
   "property": "C58",
   "status": "proved",
   "theorems": [
    "Brski.Props.C58_members",
    "Brski.Props.C58_table"
   ],
   "note": "enough memory; minIni is modelled from general knowledge of the library, not compared with its source"
  },
  {
   "property": "C59",
   "status": "proved",
   "theorems": [
    "Brski.Props.C59_issued",
    "Brski.Props.C59_complete"
   ],
   "note": "X509 operations are uninterpreted; other fields of the certificate are those submitted by construction of the model of crypto_sign_cert"
  },
  {
   "property": "C60",
   "status": "partial",
   "theorems": [
    "Brski.Props.C60_violated",
    "Brski.Props.C60_any_client_partial"
   ],
   "note": "violated: a client without certificate is enrolled; the answer does not depend on the client at all"
  },
  {
   "property": "C61",
   "status": "proved",
   "theorems": [
    "Brski.Props.C61_connected",
    "Brski.Props.C61_served"
   ],
   "note": "the transport delivers bodies unchanged; messages shorter than 2^62 bytes; jsmn is modelled from general knowledge of the library, not compared with its source"
  },
  {
   "property": "C62",
   "status": "partial",
   "theorems": [
    "Brski.Props.C62_violated",
    "Brski.Props.C62_violated_registrar",
    "Brski.Props.C62_partial",
    "Brski.Props.C62_partial_answer"
   ],
   "note": "violated: an error of a handler gets a second content type, at the registrar after the type of a voucher; partial: exact status, body and content types; no Range or Expect header"
  },
  {
   "property": "C63",
   "status": "proved",
   "theorems": [
    "Brski.Props.C63_path",
    "Brski.Props.C63_line",
    "Brski.Props.C63_dispatch",
    "Brski.Props.C63_nul"
   ],
   "note": "non-empty path; for an empty path httplib takes the query for the path (C63_empty_path)"
  },
  {
   "property": "C64",
   "status": "proved",
   "theorems": [
    "Brski.Props.C64_length"
   ],
   "note": "no Range or Expect header, no compression"
  },
  {
   "property": "C65",
   "status": "partial",
   "theorems": [
    "Brski.Props.C65_violated",
    "Brski.Props.C65_partial"
   ],
   "note": "violated for every name: basename reads past a buffer without NUL; partial: exactly the command lines that ask for the help or lack a known command are affected"
  },
  {
   "property": "C66",
   "status": "partial",
   "theorems": [
    "Brski.Props.C66_violated",
    "Brski.Props.C66_bad_answer",
    "Brski.Props.C66_bad_enrolment",
    "Brski.Props.C66_nonce_twice",
    "Brski.Props.C66_partial"
   ],
   "note": "violated: a badly padded answer (====) to the voucher request or the enrolment is released twice, whoever sends it; partial: every other behaviour of the network, for configurations without the defects of C05 and C43; jsmn is modelled from general knowledge of the library, not compared with its source"
  },
  {
   "property": "C67",
   "status": "proved",
   "theorems": [
    "Brski.Props.C67_enrolment",
    "Brski.Props.C67_returned",
    "Brski.Props.C67_no_voucher"
   ],
   "note": "for every defined run; what the TLS client does with the trust anchor is outside this property; jsmn is modelled from general knowledge of the library, not compared with its source"
  },
  {
   "property": "C68",
   "status": "partial",
   "theorems": [
    "Brski.Props.C68_violated",
    "Brski.Props.C68_partial"
   ],
   "note": "violated: the answer is returned unseen; partial: when the registrar certifies the key it was sent; jsmn is modelled from general knowledge of the library, not compared with its source"
  },
  {
   "property": "C69",
   "status": "partial",
   "theorems": [
    "Brski.Props.C69_violated",
    "Brski.Props.C69_partial"
   ],
   "note": "violated: the nonce is a constant of the configuration; partial: configurations whose nonces decode differently never accept the same answer; jsmn is modelled from general knowledge of the library, not compared with its source"
  },
  {
   "property": "C70",
   "status": "partial",
   "theorems": [
    "Brski.Props.C70_violated",
    "Brski.Props.C70_exact",
    "Brski.Props.C70_public_authority",
    "Brski.Props.C70_partial"
   ],
   "note": "violated: every certificate the system trusts will do, for any host name; exact condition; partial: holds when the system trusts nothing; jsmn is modelled from general knowledge of the library, not compared with its source"
  },
  {
   "property": "C71",
   "status": "partial",
   "theorems": [
    "Brski.Props.C71_violated",
    "Brski.Props.C71_registrar",
    "Brski.Props.C71_certificate",
    "Brski.Props.C71_partial"
   ],
   "note": "violated: without a configured client CA (always at the registrar) any certificate will do; partial: exact for a MASA with a client CA; always some certificate"
  },
  {
   "property": "C72",
   "status": "partial",
   "theorems": [
    "Brski.Props.C72_violated",
    "Brski.Props.C72_violated_crash",
    "Brski.Props.C72_undefined",
    "Brski.Props.C72_reports",
    "Brski.Props.C72_silent",
    "Brski.Props.C72_partial",
    "Brski.Props.C72_release"
   ],
   "note": "violated: unreadable certificate or any exception is undefined, a failed bind is reported as success; exact conditions for both; release after every defined start"
  },
  {
   "property": "C73",
   "status": "partial",
   "theorems": [
    "Brski.Props.C73_violated",
    "Brski.Props.C73_blind",
    "Brski.Props.C73_partial",
    "Brski.Props.C73_verified"
   ],
   "note": "violated: the registrar does not verify the MASA at all; partial: what is passed on is the server's answer to the signed request; jsmn is modelled from general knowledge of the library, not compared with its source"
  },
  {
   "property": "C74",
   "status": "partial",
   "theorems": [
    "Brski.Props.C74_violated",
    "Brski.Props.C74_exact",
    "Brski.Props.C74_partial",
    "Brski.Props.C74_run"
   ],
   "note": "violated: voucher_status, requestauditlog and enrollstatus answer 200 with a fixed text; exact answers of all endpoints without implementation; partial: EST at the MASA answers 503"
  },
  {
   "property": "C75",
   "status": "proved",
   "theorems": [
    "Brski.Props.C75_no_splitting",
    "Brski.Props.C75_kept"
   ],
   "note": "the fields a handler gives to set_response; the status line is fixed text"
  },
  {
   "property": "C76",
   "status": "proved",
   "theorems": [
    "Brski.Props.C76_request",
    "Brski.Props.C76_reply",
    "Brski.Props.C76_exchange",
    "Brski.Props.C76_long_line"
   ],
   "note": "one request per connection, posts as the client writes them (Postable), status 101 to 999 other than 204, no HEAD; multipart parsing uninterpreted"
  },
  {
   "property": "C77",
   "status": "proved",
   "theorems": [
    "Brski.Props.C77_request",
    "Brski.Props.C77_reply",
    "Brski.Props.C77_chunked",
    "Brski.Props.C77_chunked_reply",
    "Brski.Props.C77_chunked_request"
   ],
   "note": "messages as written by client and server, and any chunked content (where a cut in the trailer may be undefined instead, C78); orderly end of the connection"
  },
  {
   "property": "C78",
   "status": "partial",
   "theorems": [
    "Brski.Props.C78_violated",
    "Brski.Props.C78_violated_client",
    "Brski.Props.C78_violated_statement",
    "Brski.Props.C78_trailer",
    "Brski.Props.C78_partial",
    "Brski.Props.C78_partial_client"
   ],
   "note": "violated: a trailer line of one byte makes a pointer before the buffer (formally undefined, harmless on usual machines); exact for trailers; partial: everything without chunks; multipart parsing uninterpreted"
  },
  {
   "property": "C79",
   "status": "proved",
   "theorems": [
    "Brski.Props.C79_chunked"
   ],
   "note": "chunk sizes below 2^64 - 1, extensions start with a semicolon, no Content-Encoding"
  },
  {
   "property": "C80",
   "status": "partial",
   "theorems": [
    "Brski.Props.C80_violated",
    "Brski.Props.C80_leak_pubkey",
    "Brski.Props.C80_leak_stack",
    "Brski.Props.C80_leak_store",
    "Brski.Props.C80_leak_list",
    "Brski.Props.C80_leak_voucher",
    "Brski.Props.C80_null_cert",
    "Brski.Props.C80_negative",
    "Brski.Props.C80_dup",
    "Brski.Props.C80_signers",
    "Brski.Props.C80_partial",
    "Brski.Props.C80_partial_no_certs"
   ],
   "note": "violated: leaks when X509_set_pubkey, sk_X509_push, X509_STORE_add_cert or push_ptr_list fail and in verify_cms_voucher, NULL cert, negative results, failing copies; the signers' certificates are released twice when CMS_get0_signers lends them (as its name says; OpenSSL's source was not at hand); partial: everything else, for every pattern of other failures"
  },
  {
   "property": "C81",
   "status": "partial",
   "theorems": [
    "Brski.Props.C81_violated",
    "Brski.Props.C81_undefined",
    "Brski.Props.C81_partial"
   ],
   "note": "violated: a negative result of EVP_PKEY_keygen is taken for success and ends in i2d_PrivateKey(NULL), always; partial: failures reported by 0, and all failures of EVP_PKEY_paramgen"
  },
  {
   "property": "C82",
   "status": "partial",
   "theorems": [
    "Brski.Props.C82_violated",
    "Brski.Props.C82_leak_issue",
    "Brski.Props.C82_leak_masa",
    "Brski.Props.C82_leak_accept",
    "Brski.Props.C82_leak_log",
    "Brski.Props.C82_masa_list",
    "Brski.Props.C82_masa_padding",
    "Brski.Props.C82_registrar_exception",
    "Brski.Props.C82_registrar_malloc",
    "Brski.Props.C82_registrar_padding",
    "Brski.Props.C82_partial_requests",
    "Brski.Props.C82_partial_masa",
    "Brski.Props.C82_partial_masa_served",
    "Brski.Props.C82_partial_registrar"
   ],
   "note": "violated: a signed message that is no voucher makes the MASA lose a list of certificates; lists that cannot be loaded and badly padded bodies are released twice; leaks on exhausted memory, unchecked malloc; partial: everything else, for every number of requests; each request refused by the MASA loses at most a text and a list"
  },
  {
   "property": "C83",
   "status": "partial",
   "theorems": [
    "Brski.Props.C83_violated",
    "Brski.Props.C83_violated_failure",
    "Brski.Props.C83_long_name",
    "Brski.Props.C83_full_disk",
    "Brski.Props.C83_failed_file",
    "Brski.Props.C83_preq",
    "Brski.Props.C83_sign",
    "Brski.Props.C83_epvr",
    "Brski.Props.C83_vmasa",
    "Brski.Props.C83_serial",
    "Brski.Props.C83_partial",
    "Brski.Props.C83_preq_memory",
    "Brski.Props.C83_sign_memory",
    "Brski.Props.C83_epvr_memory",
    "Brski.Props.C83_vmasa_memory"
   ],
   "note": "violated: file names are cut to 254 bytes, so that from 254 characters on the key overwrites the certificate and success is reported; the old file is destroyed by a command that fails; a full disc is reported as success; partial: names of at most 250 characters and a disc that keeps what is written; the commands themselves (settings used, checks passed, text printed, files touched) without restriction on names; memory: nothing stays allocated on success but the decoded voucher of vmasa; jsmn is modelled from general knowledge of the library, not compared with its source; minIni is modelled from general knowledge of the library, not compared with its source"
  },
  {
   "property": "C84",
   "status": "proved",
   "theorems": [
    "Brski.Props.C84_voucher",
    "Brski.Props.C84_enrolled",
    "Brski.Props.C84_preq",
    "Brski.Props.C84_sign"
   ],
   "note": "the hypotheses are the fields of the structures Matching and Enrolling and CertWritable/PairWritable; for the commands also a readable configuration file and memory to read it (structure ConfReadable), otherwise main fails before the command; jsmn is modelled from general knowledge of the library, not compared with its source; minIni is modelled from general knowledge of the library, not compared with its source"
  },
  {
   "property": "C85",
   "status": "proved",
   "theorems": [
    "Brski.Props.C85_contents",
    "Brski.Props.C85_complete",
    "Brski.Props.C85_unique",
    "Brski.Props.C85_noticed",
    "Brski.Props.C85_lists"
   ],
   "note": "signature algorithm, key identifiers and encodings are OpenSSL's; calls that can fail for lack of memory are arbitrary (Step)"
  },
  {
   "property": "C86",
   "status": "partial",
   "theorems": [
    "Brski.Props.C86_exact",
    "Brski.Props.C86_partial",
    "Brski.Props.C86_violated",
    "Brski.Props.C86_violated_all"
   ],
   "note": "values are set with MBSTRING_ASC, so every byte of 128 and above is taken for a Latin-1 character and encoded again: UTF-8 text comes back changed (exact statement: C86_exact)"
  },
  {
   "property": "C87",
   "status": "proved",
   "theorems": [
    "Brski.Props.C87_issued",
    "Brski.Props.C87_complete",
    "Brski.Props.C87_endpoint",
    "Brski.Props.C87_enrolled"
   ],
   "note": "C87_endpoint and C87_enrolled assume that the opaque certificates of the server model reflect contents (structure Reflects); C87_enrolled assumes matching parties (C84); jsmn is modelled from general knowledge of the library, not compared with its source"
  },
  {
   "property": "C88",
   "status": "partial",
   "theorems": [
    "Brski.Props.C88_partial",
    "Brski.Props.C88_violated",
    "Brski.Props.C88_violated_ca",
    "Brski.Props.C88_violated_all"
   ],
   "note": "no check is made: with a key that can sign, everything that parses is signed; the part that holds is that the certificates the pledge itself submits have these properties"
  },
  {
   "property": "C89",
   "status": "partial",
   "theorems": [
    "Brski.Props.C89_partial_exact",
    "Brski.Props.C89_partial",
    "Brski.Props.C89_violated",
    "Brski.Props.C89_violated_all"
   ],
   "note": "the length is converted to int: 2^32 bytes leave the buffer untouched with success; true below 2^31"
  },
  {
   "property": "C90",
   "status": "partial",
   "theorems": [
    "Brski.Props.C90_number",
    "Brski.Props.C90_partial",
    "Brski.Props.C90_violated",
    "Brski.Props.C90_violated_all"
   ],
   "note": "the serial number depends on the second only; the name carries 15 of the 16 hexadecimal digits, so random bytes that differ in the last 4 bits only give the same name"
  },
  {
   "property": "C91",
   "status": "partial",
   "theorems": [
    "Brski.Props.C91_partial",
    "Brski.Props.C91_violated",
    "Brski.Props.C91_violated_coding",
    "Brski.Props.C91_violated_swallowed",
    "Brski.Props.C91_violated_range",
    "Brski.Props.C91_left_line",
    "Brski.Props.C91_left_field",
    "Brski.Props.C91_left_content",
    "Brski.Props.C91_left_chunks",
    "Brski.Props.serveNext_reply",
    "Brski.Props.alone_serve"
   ],
   "note": "true for requests whose content is read as announced (POST, PUT, PATCH, DELETE and PRI with a length and without coding and parts; other methods without content; ranges that are understood); the content of a GET request or of a refused one is run as the next request, and a POST without length swallows the following requests"
  },
  {
   "property": "C92",
   "status": "partial",
   "theorems": [
    "Brski.Props.C92_partial",
    "Brski.Props.C92_violated",
    "Brski.Props.C92_violated_late"
   ],
   "note": "true for requests of version 1.1 whose content is read as announced; false for version 1.0 and for Connection: close in a trailer"
  },
  {
   "property": "C93",
   "status": "partial",
   "theorems": [
    "Brski.Props.C93_field",
    "Brski.Props.C93_partial",
    "Brski.Props.C93_partial_whole",
    "Brski.Props.C93_violated",
    "Brski.Props.C93_violated_parts",
    "Brski.Props.C93_field_large",
    "Brski.Props.C93_parts_impossible",
    "Brski.Props.answer_none"
   ],
   "note": "parts are sent with the status of the handler (200); several ranges are computed for length 0; for one range the bytes, the length and the position are those asked for"
  },
  {
   "property": "C94",
   "status": "partial",
   "theorems": [
    "Brski.Props.C94_partial_requests",
    "Brski.Props.C94_partial",
    "Brski.Props.C94_partial_onboarded",
    "Brski.Props.C94_both",
    "Brski.Props.C94_list",
    "Brski.Props.C94_nonce",
    "Brski.Props.C94_padding",
    "Brski.Props.C94_leak",
    "Brski.Props.C94_violated"
   ],
   "note": "violated: lists that cannot be loaded, the nonce of the configuration and badly padded answers are released twice; the copy of the pinned certificate is lost when no list can be made; partial: everything else, for every other pattern of failures"
  },
  {
   "property": "C95",
   "status": "partial",
   "theorems": [
    "Brski.Props.C95_partial",
    "Brski.Props.C95_same",
    "Brski.Props.C95_digits",
    "Brski.Props.C95_unnamed",
    "Brski.Props.C95_option",
    "Brski.Props.C95_host",
    "Brski.Props.C95_word",
    "Brski.Props.C95_other",
    "Brski.Props.C95_long",
    "Brski.Props.C95_violated"
   ],
   "note": "violated: any text is accepted as port (a word or nothing is 0, for which a server gets any free port; numbers count modulo 2^32); partial: a decimal number from 1 to 65535 is used exactly; pledge and registrar always agree; minIni is modelled from general knowledge of the library, not compared with its source"
  },
  {
   "property": "C96",
   "status": "partial",
   "theorems": [
    "Brski.Props.C96_partial",
    "Brski.Props.C96_settled",
    "Brski.Props.C96_once",
    "Brski.Props.C96_rest",
    "Brski.Props.C96_failures",
    "Brski.Props.C96_violated"
   ],
   "note": "violated: a thread that cannot be started or a connection that cannot be stored makes the destruction of the pool undefined, an exception out of a connection ends the process; partial: everything without these failures, for all interleavings, with progress (bounded number of steps to rest)"
  },
  {
   "property": "C97",
   "status": "partial",
   "theorems": [
    "Brski.Props.C97_partial",
    "Brski.Props.C97_violated"
   ],
   "note": "violated: an aborted connection (ECONNABORTED) or a transient error of the network ends the server; exact: it goes on after EINTR, EAGAIN and EMFILE only; the connections accepted before are still served"
  },
  {
   "property": "C98",
   "status": "partial",
   "theorems": [
    "Brski.Props.C98_partial",
    "Brski.Props.C98_long",
    "Brski.Props.C98_voucher",
    "Brski.Props.C98_violated"
   ],
   "note": "violated: BIO_write takes an int, so that data from 2 GiB on is signed without its end, or nothing of it is, and the message is returned as a success; partial: data below 2 GiB; exact in every case; jsmn is modelled from general knowledge of the library, not compared with its source"
  },
  {
   "property": "C99",
   "status": "proved",
   "theorems": [
    "Brski.Props.C99_cut_refused",
    "Brski.Props.C99_vouchers"
   ],
   "note": "jsmn is modelled from general knowledge of the library, not compared with its source"
  },
  {
   "property": "C100",
   "status": "partial",
   "theorems": [
    "Brski.Props.C100_partial",
    "Brski.Props.C100_members",
    "Brski.Props.C100_vouchers",
    "Brski.Props.C100_violated"
   ],
   "note": "violated: after a document with an empty voucher object a colon and a member add this member to the voucher; partial: every document that gives something but the empty voucher, and every document with a member; jsmn is modelled from general knowledge of the library, not compared with its source"
  },
  {
   "property": "C101",
   "status": "partial",
   "theorems": [
    "Brski.Props.C101_rsa",
    "Brski.Props.C101_partial",
    "Brski.Props.C101_violated",
    "Brski.Props.C101_exact"
   ],
   "note": "violated: the function for elliptic curves hands a NULL text to printf when the voucher cannot be serialised and trace messages are on; partial: everything else; exact: when the two differ and how"
  },
  {
   "property": "C102",
   "status": "partial",
   "theorems": [
    "Brski.Props.C102_exact",
    "Brski.Props.C102_partial",
    "Brski.Props.C102_violated",
    "Brski.Props.C102_violated_twice",
    "Brski.Props.C102_result"
   ],
   "note": "violated: an open that fails makes the log forget the file that is open (messages go to standard error, the stream stays open, colours are off), and a second open leaks the first stream; partial: histories that close a file before they open another; exact: where every message of every history goes"
  },
  {
   "property": "C103",
   "status": "partial",
   "theorems": [
    "Brski.Props.C103_exact",
    "Brski.Props.C103_partial",
    "Brski.Props.C103_violated"
   ],
   "note": "violated: log_set_quiet, the default of the command, suppresses even the message of log_error_exit_proc, and log_error_exit obeys the level as well; partial: not quiet (and of sufficient level); exact: when and where it is written"
  },
  {
   "property": "C104",
   "status": "partial",
   "theorems": [
    "Brski.Props.C104_partial",
    "Brski.Props.C104_violated",
    "Brski.Props.C104_lost",
    "Brski.Props.C104_lost_noMem",
    "Brski.Props.C104_unset",
    "Brski.Props.C104_violated_time"
   ],
   "note": "violated: an array attribute passed back to its own setter is emptied and success reported, a time passed back is copied onto itself with memcpy (undefined); partial: source and target attribute are different, or neither a time nor an array is involved"
  },
  {
   "property": "C105",
   "status": "proved",
   "theorems": [
    "Brski.Props.C105_any",
    "Brski.Props.C105_ends",
    "Brski.Props.C105_registrar"
   ],
   "note": "steps (calls, counters of references, allocations) are atomic, names of released objects are not used again; memory that handlers write in common is not covered (the MASA's context is C42); conditions on the library as in C80 and C82"
  },
  {
   "property": "C106",
   "status": "partial",
   "theorems": [
    "Brski.Props.C106_partial",
    "Brski.Props.C106_enrolments_partial",
    "Brski.Props.C106_alone",
    "Brski.Props.C106_torn",
    "Brski.Props.C106_violated"
   ],
   "note": "holds for entries that fit into the buffer of the stream (any serial numbers of up to 2000 bytes with the usual 4096); longer entries can be torn, for every size of the buffer, since no lock is held. Errors of the file system are left out; appending writes are atomic (O_APPEND)"
  },
  {
   "property": "C107",
   "status": "partial",
   "theorems": [
    "Brski.Props.C107_masa_partial",
    "Brski.Props.C107_registrar_partial",
    "Brski.Props.C107_address_partial",
    "Brski.Props.C107_enrol_partial",
    "Brski.Props.C107_pledge_partial",
    "Brski.Props.C107_violated_each",
    "Brski.Props.C107_settings",
    "Brski.Props.C107_violated"
   ],
   "note": "violated: a missing name of a certificate or key file is handed to fopen, a missing address of the MASA or key path to std::string. Partial, exactly: a missing file name is either not looked at (an earlier file could not be read) and changes nothing, or the call is undefined; without the address every defined answer does not depend on the MASA; a missing expiry time, and at the pledge a missing address or TLS file name, are refused"
  },
  {
   "property": "C108",
   "status": "proved",
   "theorems": [
    "Brski.Props.C108_registrar",
    "Brski.Props.C108_masa",
    "Brski.Props.C108_masa_changed"
   ],
   "note": "for the handlers as programs over the heap, one request at a time (requests at the same time are C105, and C42 for the MASA); the MASA's configuration and library do not change between requests, which is needed (C108_masa_changed)"
  },
  {
   "property": "C109",
   "status": "partial",
   "theorems": [
    "Brski.Props.C109_partial",
    "Brski.Props.C109_reply",
    "Brski.Props.C109_reply_wire",
    "Brski.Props.C109_wire",
    "Brski.Props.C109_connection",
    "Brski.Props.C109_requests",
    "Brski.Props.C109_form",
    "Brski.Props.C109_form_reply",
    "Brski.Props.C109_boundary",
    "Brski.Props.C109_rest_length",
    "Brski.Props.C109_rest_end",
    "Brski.Props.C109_violated",
    "Brski.Props.C109_violated_unbounded",
    "Brski.Props.C109_violated_refused"
   ],
   "note": "violated for multipart content: what arrived of the first boundary before it is complete is thrown away, and the request refused. Partial: all requests without multipart content, and all correct forms whose first boundary is not cut; replies without exception. Whole connections without multipart content too (C109_connection, C109_requests). The view of Wire and Conn (C76 to C79, C91) is thereby justified"
  },
  {
   "property": "C110",
   "status": "partial",
   "theorems": [
    "Brski.Props.C110_partial",
    "Brski.Props.C110_reply_partial",
    "Brski.Props.C110_violated"
   ],
   "note": "violated: content without length ends with any error, so a part of it is taken for all of it. Partial: the message tells its length or comes in chunks (as all messages of these programs do), and is not multipart"
  },
  {
   "property": "C111",
   "status": "partial",
   "theorems": [
    "Brski.Props.C111_partial",
    "Brski.Props.C111_connection_partial",
    "Brski.Props.C111_violated",
    "Brski.Props.C111_violated_line"
   ],
   "note": "violated: the status is 505, HTTP Version Not Supported. Partial: the exact answer (505, the text of the exception, text/plain twice), and the connection goes on as if the handler had returned"
  },
  {
   "property": "C112",
   "status": "partial",
   "theorems": [
    "Brski.Props.C112_partial",
    "Brski.Props.C112_harm",
    "Brski.Props.C112_violated",
    "Brski.Props.C112_violated_all"
   ],
   "note": "violated on every machine, since the pool has at least eight threads: two connections are enough (C112_harm: in every pool of two threads or more). Partial: a pool of one thread, at every moment of every run"
  },
  {
   "property": "C113",
   "status": "partial",
   "theorems": [
    "Brski.Props.C113_partial",
    "Brski.Props.C113_blind",
    "Brski.Props.C113_violated"
   ],
   "note": "violated: a first answer 500, a voucher with 302 and a body with 202 are all used. Partial: the second and third status are below 400. C113_blind: exactly that is what the statuses decide; otherwise result, memory and messages are the same, also in the undefined case"
  },
  {
   "property": "C114",
   "status": "partial",
   "theorems": [
    "Brski.Props.C114_partial",
    "Brski.Props.C114_exact",
    "Brski.Props.C114_violated"
   ],
   "note": "violated: of two requests in one record only the first is answered, since keep_alive asks the socket and not OpenSSL. Exact: a request is answered if and only if the last record does not begin before it; partial: the last request begins a record. OpenSSL takes one record at a time from the socket (its default)"
  },
  {
   "property": "C115",
   "status": "partial",
   "theorems": [
    "Brski.Props.C115_exact",
    "Brski.Props.C115_handshake",
    "Brski.Props.C115_spins",
    "Brski.Props.C115_refused",
    "Brski.Props.C115_accepted",
    "Brski.Props.C115_violated",
    "Brski.Props.C115_violated_handshake"
   ],
   "note": "violated from descriptor 1024 (FD_SETSIZE) on: every request is answered with 500 and a silent client keeps a thread busy for ever. Partial, exactly: below 1024 the number makes no difference and the handshake is given up after five seconds of silence"
  },
  {
   "property": "C116",
   "status": "partial",
   "theorems": [
    "Brski.Props.C116_partial",
    "Brski.Props.C116_written",
    "Brski.Props.C116_again",
    "Brski.Props.C116_link",
    "Brski.Props.C116_violated"
   ],
   "note": "violated: a server that closes the session when it has the request makes the client send the whole request again, to whatever server it reaches then. Partial, exactly: at most two connections; the second one only in this case; a reply and the certificate handed over come from the last connection; otherwise the request is the one of C69, C70, C113"
  },
  {
   "property": "C117",
   "status": "partial",
   "theorems": [
    "Brski.Props.C117_partial",
    "Brski.Props.C117_violated"
   ],
   "note": "violated: a request without body is sent again with a second field Content-Length. Partial, exactly: the first copy, and every copy of a request with a body, is the request or the beginning of it"
  },
  {
   "property": "C118",
   "status": "partial",
   "theorems": [
    "Brski.Props.C118_partial",
    "Brski.Props.C118_violated"
   ],
   "note": "violated: without verification of the server the certificate of the first connection is lost when the request is sent again. Partial, exactly: in all other cases everything is released once and not used afterwards"
  },
  {
   "property": "C119",
   "status": "partial",
   "theorems": [
    "Brski.Props.C119_exact",
    "Brski.Props.C119_partial",
    "Brski.Props.C119_starved",
    "Brski.Props.C119_violated"
   ],
   "note": "violated: with eight threads a ninth client is never served while eight clients hold their connections; partial: every client is served in the end, however many follow, when the connections being served come to an end; and (starved) nobody is taken up while all threads are held; exact: a client is served in the end if and only if it is neither served for ever nor kept out by threads that are all held for ever"
  },
  {
   "property": "C120",
   "status": "partial",
   "theorems": [
    "Brski.Props.C120_exact",
    "Brski.Props.C120_partial",
    "Brski.Props.C120_violated"
   ],
   "note": "violated: a server stopped while clients hold their connections does not return; partial: it returns, with every accepted client served, when the connections being served come to an end"
  },
  {
   "property": "C121",
   "status": "proved",
   "theorems": [
    "Brski.Props.C121_holds"
   ],
   "note": "for clients and servers; that the system gives descriptors that are not open is a hypothesis"
  },
  {
   "property": "C122",
   "status": "partial",
   "theorems": [
    "Brski.Props.C122_partial",
    "Brski.Props.C122_partial_error",
    "Brski.Props.C122_violated"
   ],
   "note": "violated: on a descriptor of 1024 or more a connection that is not made at once is given up; partial, exactly: the first address that accepts at once or on a smaller descriptor, with the error accordingly"
  },
  {
   "property": "C123",
   "status": "partial",
   "theorems": [
    "Brski.Props.C123_partial",
    "Brski.Props.C123_violated",
    "Brski.Props.C123_exact"
   ],
   "note": "violated: the limit of 300 seconds applies to each address, two silent ones take ten minutes; partial: within the limit times the number of addresses, also with interruptions; exact: the sum of the waiting times at the addresses tried"
  },
  {
   "property": "C124",
   "status": "partial",
   "theorems": [
    "Brski.Props.C124_partial",
    "Brski.Props.C124_others",
    "Brski.Props.C124_violated"
   ],
   "note": "violated: SO_REUSEPORT lets a second server of the same user start at the same port; partial, exactly: the first address shared at most with sockets of the same user that allow it; never with programs of other users"
  },
  {
   "property": "C125",
   "status": "partial",
   "theorems": [
    "Brski.Props.C125_partial",
    "Brski.Props.C125_violated"
   ],
   "note": "violated: when the first address of the name is in use the server listens at the next and reports success, while clients are connected to the other program; partial: when no other program listens at any of the addresses"
  },
  {
   "property": "C126",
   "status": "partial",
   "theorems": [
    "Brski.Props.C126_partial",
    "Brski.Props.C126_partial_heads",
    "Brski.Props.C126_requests",
    "Brski.Props.C126_violated",
    "Brski.Props.C126_violated_exchanged",
    "Brski.Props.C126_violated_goes_on"
   ],
   "note": "violated: the result of writing the head of a reply is ignored, so a body can arrive without head, and after a lost reply to HEAD the next reply arrives in its place; partial: everything in order when a socket that was not writable in time never is again; in any case nothing but heads, interim replies and the end is missing"
  },
  {
   "property": "C127",
   "status": "partial",
   "theorems": [
    "Brski.Props.C127_partial",
    "Brski.Props.C127_violated",
    "Brski.Props.C127_masa",
    "Brski.Props.C127_enrol"
   ],
   "note": "violated: when the head of a reply is lost, a body that looks like a reply is taken for the reply; partial: all replies whose body does not begin like a reply, so all replies of the MASA and to enrolments"
  },
  {
   "property": "C128",
   "status": "partial",
   "theorems": [
    "Brski.Props.C128_partial",
    "Brski.Props.C128_exact",
    "Brski.Props.C128_never",
    "Brski.Props.C128_refuses",
    "Brski.Props.C128_violated",
    "Brski.Props.C128_violated_serving",
    "Brski.Props.C128_violated_begin",
    "Brski.Props.C128_violated_closed"
   ],
   "note": "violated: httplib_stop deletes the server while the listening thread and the threads of the pool still use it; a server stopped while it listens never returns in a defined way (C128_never), a step is undefined exactly if it looks at a deleted server (C128_exact); partial: servers stopped after listening has returned, as the programs of the project do"
  },
  {
   "property": "C129",
   "status": "proved",
   "theorems": [
    "Brski.Props.C129_main",
    "Brski.Props.C129_counts",
    "Brski.Props.C129_shaken",
    "Brski.Props.C129_stops"
   ],
   "note": "all behaviours of client and system; exceptions out of process_request are C96 and C111"
  },
  {
   "property": "C130",
   "status": "partial",
   "theorems": [
    "Brski.Props.C130_partial",
    "Brski.Props.C130_unbounded",
    "Brski.Props.C130_violated"
   ],
   "note": "violated: the limit holds for each wait, not for the handshake, so a client that sends something every few seconds holds a thread as long as it likes; partial: five seconds and five more for each wait the client ended"
  },
  {
   "property": "C131",
   "status": "proved",
   "theorems": [
    "Brski.Props.C131_main",
    "Brski.Props.C131_exact",
    "Brski.Props.C131_stopped"
   ],
   "note": "how long a request lasts is a hypothesis of C131_main"
  },
  {
   "property": "C132",
   "status": "proved",
   "theorems": [
    "Brski.Props.C132_split",
    "Brski.Props.C132_split_two",
    "Brski.Props.delimited_pieces",
    "Brski.Props.C132_decode",
    "Brski.Props.C132_decode_text",
    "Brski.Props.C132_header",
    "Brski.Props.C132_line",
    "Brski.Props.C132_line_one",
    "Brski.Props.C132_format"
   ],
   "note": "proves the functions of Routes and Wire that the other properties use equal to a model with indices and arrays; the array of the line reader must have at least two bytes (it has 2048 or 16), shown necessary"
  },
  {
   "property": "C133",
   "status": "partial",
   "theorems": [
    "Brski.Props.C133_partial",
    "Brski.Props.C133_partial_distinct",
    "Brski.Props.C133_violated",
    "Brski.Props.C133_equals"
   ],
   "note": "violated: a field that occurs twice is read once; partial is exact: the fields without repetitions, in order; no handler of brski looks at these fields"
  },
  {
   "property": "C134",
   "status": "partial",
   "theorems": [
    "Brski.Props.C134_partial",
    "Brski.Props.C134_partial_name",
    "Brski.Props.C134_partial_v4",
    "Brski.Props.C134_partial_v6",
    "Brski.Props.accepts_sound",
    "Brski.Props.C134_violated",
    "Brski.Props.C134_violated_undefined",
    "Brski.Props.C134_violated_common",
    "Brski.Props.C134_fragment"
   ],
   "note": "violated: for an IPv4 host an address beginning with four zeros (such as ::1) is accepted, for an IPv6 host another address makes the check read past its variables, and the common name counts beside host names; the partial theorems say exactly what is accepted in the three cases; brski turns the check off"
  },
  {
   "property": "C135",
   "status": "proved",
   "theorems": [
    "Brski.Props.C135",
    "Brski.Props.C135_short"
   ],
   "note": "the parser with its buffer, positions and byte-wise copies; running out of rounds, an access outside the buffer and a negative difference are undefined outcomes; C135_short: it decides as the parser of C109 with the lines accepted that it reads"
  },
  {
   "property": "C136",
   "status": "partial",
   "theorems": [
    "Brski.Props.C136_partial",
    "Brski.Props.C136_equals",
    "Brski.Props.C136_violated",
    "Brski.Props.C136_violated_semicolon",
    "Brski.Props.C136_violated_epilogue",
    "Brski.Props.C136_violated_first",
    "Brski.Props.C136_case",
    "Brski.Props.C136_extended",
    "Brski.Props.C136_extended_refused"
   ],
   "note": "violated: = and ; inside quotes cut a name (a ; can add a file name), what follows a form and arrives later adds a part, a first boundary in two pieces is not found; proved for names without = and ;, the first boundary in one piece and nothing behind the form"
  },
  {
   "property": "C137",
   "status": "proved",
   "theorems": [
    "Brski.Props.C137",
    "Brski.Props.C137_pieces",
    "Brski.Props.C137_paused",
    "Brski.Props.C137_line"
   ],
   "note": "SSLSocketStream::read with its retries; C137_pieces and C137_paused justify the streams of Cut.lean (C109) and the parts of C139"
  },
  {
   "property": "C138",
   "status": "partial",
   "theorems": [
    "Brski.Props.C138_partial",
    "Brski.Props.C138_longest",
    "Brski.Props.C138_unbounded",
    "Brski.Props.C138_violated"
   ],
   "note": "violated: a client that sends a byte every five seconds is never given up, and events without data prolong one read to 1001 waits; proved: a read takes at most 1001 waits, a line that for each byte of the client and once more"
  },
  {
   "property": "C139",
   "status": "partial",
   "theorems": [
    "Brski.Props.C139_partial",
    "Brski.Props.C139_between",
    "Brski.Props.C139_violated"
   ],
   "note": "violated: after a pause within the content the request is refused but the rest of the content is taken for requests; proved: everything up to the refusal, and pauses between requests make no difference"
  },
  {
   "property": "C140",
   "status": "partial",
   "theorems": [
    "Brski.Props.C140_partial",
    "Brski.Props.C140_exact",
    "Brski.Props.C140_violated_each",
    "Brski.Props.C140_violated",
    "Brski.Props.C140_violated_delete"
   ],
   "note": "violated: of two lengths the first counts, of a text the number at its front, and codings other than exactly chunked are ignored, so that the rest of the content is run as the next request; exact: which bytes are the content for every form of the first length; partial: lengths that agree, and chunked content of methods other than DELETE"
  },
  {
   "property": "C141",
   "status": "partial",
   "theorems": [
    "Brski.Props.C141_partial",
    "Brski.Props.C141_form",
    "Brski.Props.C141_unlimited",
    "Brski.Props.C141_late",
    "Brski.Props.C141_violated"
   ],
   "note": "violated: neither the number of fields nor (up to 2^64) the content has a limit; proved: never more than the client has sent, every line at most 8192 bytes, forms at most 8192 bytes"
  },
  {
   "property": "C142",
   "status": "partial",
   "theorems": [
    "Brski.Props.C142_partial",
    "Brski.Props.C142_fields",
    "Brski.Props.C142_taken",
    "Brski.Props.C142_exact",
    "Brski.Props.C142_violated_each",
    "Brski.Props.C142_violated"
   ],
   "note": "violated: an interim reply other than 100 is taken for the reply, with the reply as its content, and after 100 with a field the reply is lost; exact: just the replies 100 without fields are skipped, any number of them"
  },
  {
   "property": "C143",
   "status": "partial",
   "theorems": [
    "Brski.Props.C143_partial",
    "Brski.Props.C143_unlimited",
    "Brski.Props.C143_violated"
   ],
   "note": "violated: every body at all is handed to the caller; proved: never more than the server has sent"
  },
  {
   "property": "C144",
   "status": "partial",
   "theorems": [
    "Brski.Props.C144_partial",
    "Brski.Props.C144_recorded",
    "Brski.Props.C144_forged",
    "Brski.Props.C144_violated",
    "Brski.Props.C144_violated_forged"
   ],
   "note": "violated: a quote in a serial number makes entries ambiguous, and for every two entries there is a serial number whose single entry is these two; holds for serial numbers without quotes that are not the text NULL (newlines do no harm)"
  },
  {
   "property": "C145",
   "status": "partial",
   "theorems": [
    "Brski.Props.C145_partial",
    "Brski.Props.C145_exact",
    "Brski.Props.C145_quiet",
    "Brski.Props.C145_forged",
    "Brski.Props.C145_forged_message",
    "Brski.Props.C145_violated"
   ],
   "note": "violated: with -d the content of requests to the handlers that are not implemented is logged as it is, so that every line can be forged without a certificate; exact count of lines; without -d nothing is logged. Messages of the other handlers are left out"
  },
  {
   "property": "C146",
   "status": "partial",
   "theorems": [
    "Brski.Props.C146_partial",
    "Brski.Props.C146_exact",
    "Brski.Props.C146_alike",
    "Brski.Props.C146_others",
    "Brski.Props.C146_told",
    "Brski.Props.C146_violated"
   ],
   "note": "violated: a client's own fields of these names are joined with the true ones, before them from the header and behind them from the trailer, so that neither the first nor the last can be relied on; exact value for every list of fields; holds for requests without fields of these names; the added fields change nothing for other names"
  },
  {
   "property": "C147",
   "status": "partial",
   "theorems": [
    "Brski.Props.C147_partial",
    "Brski.Props.C147_blind",
    "Brski.Props.C147_blind_cert",
    "Brski.Props.C147_config",
    "Brski.Props.C147_violated"
   ],
   "note": "violated: X509_V_FLAG_CRL_CHECK is never set, so that revocation lists have no effect (exact: only unreadable ones matter), and configurations cannot contain any; partial: every revocation list reaches the library, so that with a library that looked at them the property would hold. That OpenSSL ignores the lists without the flag is documented behaviour, a hypothesis here"
  },
  {
   "property": "C148",
   "status": "partial",
   "theorems": [
    "Brski.Props.C148_partial",
    "Brski.Props.C148_never",
    "Brski.Props.C148_unset",
    "Brski.Props.C148_violated"
   ],
   "note": "violated by every voucher: none has a date of creation, and every one has a date of expiry, also with a nonce; a MASA without configured date of expiry issues none at all; partial: assertion, serial number and pinned certificate are there"
  },
  {
   "property": "C149",
   "status": "partial",
   "theorems": [
    "Brski.Props.C149_partial",
    "Brski.Props.C149_exact",
    "Brski.Props.C149_same",
    "Brski.Props.C149_unnoticed",
    "Brski.Props.C149_violated",
    "Brski.Props.C149_violated_accepted"
   ],
   "note": "violated: voucher_req_cb ignores the certificates of the registrar and copies the file in the configuration, so that all vouchers of a MASA pin the same certificate (exact); holds when all trusted registrars belong to the configured domain"
  },
  {
   "property": "C150",
   "status": "partial",
   "theorems": [
    "Brski.Props.C150_partial",
    "Brski.Props.C150_blind",
    "Brski.Props.C150_violated"
   ],
   "note": "violated: the certificate of the signer of the pledge's request is never looked at, so that any device the MASA trusts can get a voucher for any other (blind: the answer does not depend on which device signed); partial: the number is the one in a text that a trusted device has signed"
  },
  {
   "property": "C151",
   "status": "partial",
   "theorems": [
    "Brski.Props.C151_partial",
    "Brski.Props.C151_violated"
   ],
   "note": "violated: the signer of the request is never compared with the client, only the serial number in the text with that of the client's certificate; partial: some trusted device has signed a text with this number, and what the MASA gets has the number and the issuer of the client's certificate"
  },
  {
   "property": "C152",
   "status": "partial",
   "theorems": [
    "Brski.Props.C152_partial",
    "Brski.Props.C152_exact",
    "Brski.Props.C152_blind",
    "Brski.Props.C152_violated"
   ],
   "note": "violated: the MASA never reads idevid-issuer and never sets it in a voucher, so that requests that differ only in it are answered with the same bytes (blind); partial: different serial numbers or nonces give different vouchers"
  }
 ]
}