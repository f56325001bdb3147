{
 "claims": [
  {
   "property": "C01",
   "status": "proved",
   "theorems": [
    "Birch.Props.C01_marshal_canonical",
    "Birch.Props.C01_marshal_represented",
    "Birch.Props.C01_marshal_element",
    "Birch.Props.C01_nul_key_truncated"
   ],
   "note": "All element types and nestings, for constructor-built and for partly parsed documents. Keys must not contain NUL; C01_nul_key_truncated shows why. MarshalBSON's int32 size limit is a hypothesis."
  },
  {
   "property": "C02",
   "status": "partial",
   "theorems": [
    "Birch.Props.C02_read_back",
    "Birch.Props.C02_read_back_partial",
    "Birch.Props.C02_decimal_counterexample"
   ],
   "note": "Proved for documents without Decimal128 values (C02_read_back); with decimals the two halves come back swapped (C02_read_back states exactly what comes back, C02_decimal_counterexample refutes the full claim)."
  },
  {
   "property": "C03",
   "status": "proved",
   "theorems": [
    "Birch.Props.C03_read_marshal",
    "Birch.Props.C03_open_succeeds"
   ],
   "note": ""
  },
  {
   "property": "C04",
   "status": "proved",
   "theorems": [
    "Birch.Props.C04_size_header_length",
    "Birch.Props.C04_size_header_length_array"
   ],
   "note": ""
  },
  {
   "property": "C05",
   "status": "proved",
   "theorems": [
    "Birch.Props.C05_uniquely_decodable",
    "Birch.Props.C05_concatenation"
   ],
   "note": ""
  },
  {
   "property": "C06",
   "status": "proved",
   "theorems": [
    "Birch.Props.C06_reader_validate"
   ],
   "note": ""
  },
  {
   "property": "C07",
   "status": "proved",
   "theorems": [
    "Birch.Props.C07_positional_keys"
   ],
   "note": ""
  },
  {
   "property": "C08",
   "status": "partial",
   "theorems": [
    "Birch.Props.C08_double",
    "Birch.Props.C08_string",
    "Birch.Props.C08_javaScript",
    "Birch.Props.C08_symbol",
    "Birch.Props.C08_objectID",
    "Birch.Props.C08_boolean",
    "Birch.Props.C08_dateTime",
    "Birch.Props.C08_int32",
    "Birch.Props.C08_int64",
    "Birch.Props.C08_timestamp",
    "Birch.Props.C08_binaryWithSubtype",
    "Birch.Props.C08_regex",
    "Birch.Props.C08_dbPointer",
    "Birch.Props.C08_constants",
    "Birch.Props.C08_decimal128_swapped",
    "Birch.Props.C08_decimal128_counterexample",
    "Birch.Props.C08_binary",
    "Birch.Props.C08_subDocumentFromReader"
   ],
   "note": "Holds for every scalar type except Decimal128, whose accessor swaps the two halves (C08_decimal128_swapped, C08_decimal128_counterexample)."
  },
  {
   "property": "C09",
   "status": "proved",
   "theorems": [
    "Birch.Props.C09_no_error",
    "Birch.Props.C09_accessors",
    "Birch.Props.C09_nested_accessors",
    "Birch.Props.C09_readerArray",
    "Birch.Props.C09_regex_symbol",
    "Birch.Props.C09_int",
    "Birch.Props.C09_uninitialized"
   ],
   "note": "ReaderArray is covered for arrays held as bytes only; RegexOK and SymbolOK do not exist in the code. C09_no_error: no accessor ever returns an error."
  },
  {
   "property": "C10",
   "status": "partial",
   "theorems": [
    "Birch.Props.C10_readDocument_diverges",
    "Birch.Props.C10_readerValidate_diverges",
    "Birch.Props.C10_readDocument_panics",
    "Birch.Props.C10_readerValidate_panics",
    "Birch.Props.C10_accepted_string_panics",
    "Birch.Props.C10_readDocument_no_panic_partial",
    "Birch.Props.C10_readDocument_total_partial",
    "Birch.Props.C10_readerValidate_total_partial"
   ],
   "note": "The claim is false: C10_*_diverges, C10_*_panics and C10_accepted_string_panics are counterexamples. The _partial theorems give totality when no length field is negative or oversized."
  },
  {
   "property": "C11",
   "status": "proved",
   "theorems": [
    "Birch.Props.C11_readFrom",
    "Birch.Props.C11_sequence",
    "Birch.Props.C11_truncated",
    "Birch.Props.C11_constructors_truncated",
    "Birch.Props.C11_newFromIOReader",
    "Birch.Props.C11_short_length_panics"
   ],
   "note": "io.Reader is any list of segments, possibly empty, with or without EOF on the last read. C11_truncated: a stream cut right after the length reports io.EOF. C11_short_length_panics: lengths 0 to 3 panic. C11_constructors_truncated: DC.ReadFrom panics on a stream that is cut, except right after the length, where it returns nil."
  },
  {
   "property": "C12",
   "status": "proved",
   "theorems": [
    "Birch.Props.C12_contents",
    "Birch.Props.C12_shows",
    "Birch.Props.C12_append",
    "Birch.Props.C12_extend",
    "Birch.Props.C12_create",
    "Birch.Props.C12_reset",
    "Birch.Props.C12_append_nil"
   ],
   "note": "At slice level: capacity, growth and aliasing of backing arrays are part of the model. C12_contents is the full refinement for arbitrary call sequences on any number of documents. C12_append_nil: a nil element panics."
  },
  {
   "property": "C13",
   "status": "proved",
   "theorems": [
    "Birch.Props.C13_set"
   ],
   "note": "For every reachable world; other documents are shown to be unaffected."
  },
  {
   "property": "C14",
   "status": "proved",
   "theorems": [
    "Birch.Props.C14_delete"
   ],
   "note": "For every reachable world; other documents are shown to be unaffected."
  },
  {
   "property": "C15",
   "status": "proved",
   "theorems": [
    "Birch.Props.C15_lookup",
    "Birch.Props.C15_search"
   ],
   "note": "Lookup, LookupErr, LookupElement, LookupElementErr on the slice-level model; Search on the value-level model."
  },
  {
   "property": "C16",
   "status": "proved",
   "theorems": [
    "Birch.Props.C16_search",
    "Birch.Props.C16_reader",
    "Birch.Props.C16_agree"
   ],
   "note": "Search accepts array positions with sign and leading zeros (spec: index); RecursiveLookup only canonical ones (spec: canonicalIndex); C16_agree relates them."
  },
  {
   "property": "C17",
   "status": "partial",
   "theorems": [
    "Birch.Props.C17_sorted",
    "Birch.Props.C17_unique",
    "Birch.Props.C17_bson_partial",
    "Birch.Props.C17_equal_keys_reordered"
   ],
   "note": "Permutation, key order, stability for ties and uniqueness of the stable sort are proved; elements with equal keys do not keep their order because Less also compares type and value (C17_equal_keys_reordered). NaN values excluded."
  },
  {
   "property": "C18",
   "status": "partial",
   "theorems": [
    "Birch.Props.C18_filter",
    "Birch.Props.C18_bson_partial",
    "Birch.Props.C18_oddly_empty"
   ],
   "note": "Proved for all values except those IsEmpty treats oddly; C18_oddly_empty refutes the claim on each of them (undefined, non-zero ObjectID, regex/DBPointer/scoped code with an empty first component)."
  },
  {
   "property": "C19",
   "status": "partial",
   "theorems": [
    "Birch.Props.C19_map_partial",
    "Birch.Props.C19_map_stale"
   ],
   "note": "False as stated: C19_map_stale. C19_map_partial covers every history whose last change to the document was not a replacement or removal."
  },
  {
   "property": "C20",
   "status": "proved",
   "theorems": [
    "Birch.Props.C20_set",
    "Birch.Props.C20_delete",
    "Birch.Props.C20_append"
   ],
   "note": "Same slice-level model; Array methods that only forward to the inner document are the document calls."
  },
  {
   "property": "C21",
   "status": "proved",
   "theorems": [
    "Birch.Props.C21_truncated",
    "Birch.Props.C21_unknown",
    "Birch.Props.C21_invalid",
    "Birch.Props.C21_accepted_panics",
    "Birch.Props.C21_equal_iff",
    "Birch.Props.C21_equivalence",
    "Birch.Props.C21_representation",
    "Birch.Props.C21_elements"
   ],
   "note": "Encoded size below 2^31-8; arrays are compared with their keys as stored, which is the encoding for values in Rep. C21_truncated, C21_unknown and C21_invalid: malformed values equal nothing; but a malformed value that passes Reader.Validate can make Equal panic (C21_accepted_panics)."
  },
  {
   "property": "C22",
   "status": "partial",
   "theorems": [
    "Birch.Props.C22_atomic_partial",
    "Birch.Props.C22_window",
    "Birch.Props.C22_element_window",
    "Birch.Props.C22_composite_counterexample"
   ],
   "note": "All encoders report and keep to their window; single-value encoders are atomic on ErrTooSmall. The composite Element writers write type and key before failing (C22_composite_counterexample)."
  },
  {
   "property": "C23",
   "status": "partial",
   "theorems": [
    "Birch.Props.C23_integers_partial",
    "Birch.Props.C23_int_truncates"
   ],
   "note": "All ten integer types; false for int below -2^31 (C23_int_truncates)."
  },
  {
   "property": "C24",
   "status": "proved",
   "theorems": [
    "Birch.Props.C24_time"
   ],
   "note": ""
  },
  {
   "property": "C25",
   "status": "proved",
   "theorems": [
    "Birch.Props.C25_round_trip",
    "Birch.Props.C25_accepts_exactly",
    "Birch.Props.C25_text_round_trip"
   ],
   "note": ""
  },
  {
   "property": "C26",
   "status": "proved",
   "theorems": [
    "Birch.Props.C26_distinct",
    "Birch.Props.C26_length",
    "Birch.Props.C26_layout"
   ],
   "note": "At most 2^24 calls by any number of goroutines, any interleaving of the atomic increments; the clock may return anything. C26_layout states the bytes of each id."
  },
  {
   "property": "C27",
   "status": "partial",
   "theorems": [
    "Birch.Props.C27_divmod",
    "Birch.Props.C27_muladd_partial",
    "Birch.Props.C27_overflow_missed"
   ],
   "note": "divmod is exact. muladd's result is exact modulo 2^128 and it never reports an overflow that is not there, but it misses overflows (C27_overflow_missed)."
  },
  {
   "property": "C28",
   "status": "partial",
   "theorems": [
    "Birch.Props.C28_grammar",
    "Birch.Props.C28_special",
    "Birch.Props.C28_special_string",
    "Birch.Props.C28_unreadable",
    "Birch.Props.C28_in_range",
    "Birch.Props.C28_exact",
    "Birch.Props.C28_small",
    "Birch.Props.C28_large_partial",
    "Birch.Props.C28_unchecked",
    "Birch.Props.C28_noncanonical",
    "Birch.Props.C28_string",
    "Birch.Props.C28_round_trip",
    "Birch.Props.C28_parse_partial",
    "Birch.Props.C28_overflow_accepted",
    "Birch.Props.C28_exponent_accepted"
   ],
   "note": "String and the String/Parse round trip are proved in full. Reading is characterised for every text: C28_grammar (what is not a number is rejected), C28_special, C28_unreadable, C28_in_range, C28_exact (no rounding), C28_small, C28_unchecked; only above 6111 (C28_large_partial) not every rejection is proved, because it does not happen. The range claim is false: C28_overflow_accepted, C28_exponent_accepted, C28_noncanonical."
  },
  {
   "property": "C29",
   "status": "proved",
   "theorems": [
    "Birch.Props.C29_string",
    "Birch.Props.C29_utf8"
   ],
   "note": "Strings are byte strings; the literal is read back by a reader for RFC 8259 string literals, and is UTF-8 if the string is."
  },
  {
   "property": "C30",
   "status": "partial",
   "theorems": [
    "Birch.Props.C30_marshal_partial",
    "Birch.Props.C30_key_counterexample",
    "Birch.Props.C30_key_invalid",
    "Birch.Props.C30_precision_lost",
    "Birch.Props.C30_nan_invalid"
   ],
   "note": "False for keys that need escaping (C30_key_counterexample, C30_key_invalid), small numbers and NaN. C30_marshal_partial covers everything else, with doubles rounded to six decimal places; reading is by the specification's JSON reader."
  },
  {
   "property": "C31",
   "status": "proved",
   "theorems": [
    "Birch.Props.C31_roundtrip",
    "Birch.Props.C31_form",
    "Birch.Props.C31_stream"
   ],
   "note": "Every int64; the numbers may be followed by any further bytes."
  },
  {
   "property": "C32",
   "status": "proved",
   "theorems": [
    "Birch.Props.C32_lossless"
   ],
   "note": "For any number of metrics and samples, integer metrics; the delta table is the collector's (metric-major, stride maxDeltas)."
  },
  {
   "property": "C33",
   "status": "partial",
   "theorems": [
    "Birch.Props.C33_structured",
    "Birch.Props.C33_kept_partial",
    "Birch.Props.C33_doubles_differ",
    "Birch.Props.C33_timestamps_scaled",
    "Birch.Props.C33_dates_wrap"
   ],
   "note": "C33_structured says exactly what comes back for every sequence: doubles come back as differences, timestamps scaled, far dates wrapped (three counterexamples). C33_kept_partial: everything else comes back unchanged. Compression and float subtraction are parameters; resolved chunks must stay below 2 GB."
  },
  {
   "property": "C34",
   "status": "proved",
   "theorems": [
    "Birch.Props.C34_history",
    "Birch.Props.C34_capacity",
    "Birch.Props.C34_rejected_harmless",
    "Birch.Props.C34_key_change_accepted"
   ],
   "note": "For every history of represented documents with any types. Only types are compared, not names (C34_key_change_accepted)."
  },
  {
   "property": "C35",
   "status": "proved",
   "theorems": [
    "Birch.Props.C35_batch",
    "Birch.Props.C35_kept_partial",
    "Birch.Props.C35_empty_error",
    "Birch.Props.C35_zero_limit"
   ],
   "note": "C35_batch: every sequence of one shape, every limit from 1; the values come back as C33 describes (backChunks), so C35_kept_partial restricts the value types. Limit 0 and empty collectors cannot be resolved."
  },
  {
   "property": "C36",
   "status": "proved",
   "theorems": [
    "Birch.Props.C36_written_once",
    "Birch.Props.C36_kept_partial"
   ],
   "note": "C36_written_once also covers writers that fail at any time without writing; the values come back as C33 describes, so C36_kept_partial restricts the value types."
  },
  {
   "property": "C37",
   "status": "partial",
   "theorems": [
    "Birch.Props.C37_streaming_partial",
    "Birch.Props.C37_streaming_kept_partial",
    "Birch.Props.C37_dynamic_partial",
    "Birch.Props.C37_equal_fingerprints",
    "Birch.Props.C37_splits_more",
    "Birch.Props.C37_sample_renamed",
    "Birch.Props.C37_sample_rejected",
    "Birch.Props.C37_metadata_lost"
   ],
   "note": "The statement is false. C37_streaming_partial and C37_dynamic_partial: no sample is lost and no chunk crosses the first change, if equal fingerprints mean equal shapes (and, in memory, the first keys do not return). C37_equal_fingerprints, C37_sample_renamed, C37_sample_rejected, C37_splits_more and C37_metadata_lost refute the rest."
  },
  {
   "property": "C38",
   "status": "partial",
   "theorems": [
    "Birch.Props.C38_keys",
    "Birch.Props.C38_keys_partial",
    "Birch.Props.C38_distinct_partial",
    "Birch.Props.C38_middle_lost",
    "Birch.Props.C38_dots_collide"
   ],
   "note": "False for documents nested more than one level deep (C38_middle_lost) and for names with dots (C38_dots_collide). C38_keys says exactly which keys there are; the partial theorems give full paths and distinctness otherwise."
  },
  {
   "property": "C39",
   "status": "partial",
   "theorems": [
    "Birch.Props.C39_views_partial",
    "Birch.Props.C39_no_timestamps_partial",
    "Birch.Props.C39_timestamps_differ",
    "Birch.Props.C39_array_names"
   ],
   "note": "C39_views_partial relates all three views for every chunk that can be read; they differ in the high bits of timestamps (C39_timestamps_differ) and in the index of array elements after a non-number (C39_array_names). The JSON export is not modelled; for the CSV export see C66 and after."
  },
  {
   "property": "C40",
   "status": "partial",
   "theorems": [
    "Birch.Props.C40_serialize",
    "Birch.Props.C40_roundtrip_partial",
    "Birch.Props.C40_constructors",
    "Birch.Props.C40_parse_partial",
    "Birch.Props.C40_sequence_size",
    "Birch.Props.C40_query_upconverted",
    "Birch.Props.C40_query_empty",
    "Birch.Props.C40_opMessage",
    "Birch.Props.C40_moreToCome",
    "Birch.Props.C40_checksum_lost"
   ],
   "note": "C40_roundtrip_partial: every message of every type, but for queries with a `$` collection, which come back as commands (C40_query_upconverted) or panic (C40_query_empty), and the header size of OP_MSG. Serialized document sequences have a size that is one too large for the protocol (C40_sequence_size); both sizes are parsed."
  },
  {
   "property": "C41",
   "status": "proved",
   "theorems": [
    "Birch.Props.C41_length",
    "Birch.Props.C41_protocol",
    "Birch.Props.C41_again",
    "Birch.Props.C41_invalid_panics"
   ],
   "note": "For every message whose documents can be marshalled and that is shorter than 2 GB, also with nil documents; kill-cursors must have the right count, as its constructor and parser give it. C41_invalid_panics: with a document that is not valid, Serialize panics."
  },
  {
   "property": "C42",
   "status": "partial",
   "theorems": [
    "Birch.Props.C42_frames_partial",
    "Birch.Props.C42_one_segment_partial",
    "Birch.Props.C42_split_size",
    "Birch.Props.C42_overread",
    "Birch.Props.C42_not_all_segmentations",
    "Birch.Props.C42_eager"
   ],
   "note": "The statement is false: C42_not_all_segmentations, C42_split_size, C42_overread and C42_eager. C42_frames_partial has the segmentations for which it holds, for any sequence of messages up to 200 MiB."
  },
  {
   "property": "C43",
   "status": "partial",
   "theorems": [
    "Birch.Props.C43_send_partial",
    "Birch.Props.C43_chunks",
    "Birch.Props.C43_error",
    "Birch.Props.C43_end_to_end",
    "Birch.Props.C43_duplicate",
    "Birch.Props.C43_stuck"
   ],
   "note": "C43_send_partial covers every pattern of partial writes and errors, C43_end_to_end joins it with ReadMessage. When the context ends a message can be written twice and nil returned (C43_duplicate)."
  },
  {
   "property": "C44",
   "status": "proved",
   "theorems": [
    "Birch.Props.C44_get",
    "Birch.Props.C44_never_replaced",
    "Birch.Props.C44_add",
    "Birch.Props.C44_zero_value",
    "Birch.Props.C44_scope",
    "Birch.Props.C44_dispatch",
    "Birch.Props.C44_payload"
   ],
   "note": "For every history; handlers are any type and payload documents are compared by identity. C44_dispatch follows a message to its handler."
  },
  {
   "property": "C45",
   "status": "proved",
   "theorems": [
    "Birch.Props.C45_split",
    "Birch.Props.C45_compose",
    "Birch.Props.C45_command"
   ],
   "note": "Namespaces are byte strings."
  },
  {
   "property": "C46",
   "status": "partial",
   "theorems": [
    "Birch.Props.C46_error",
    "Birch.Props.C46_isMaster",
    "Birch.Props.C46_text",
    "Birch.Props.C46_log_partial",
    "Birch.Props.C46_log_made",
    "Birch.Props.C46_log_lost",
    "Birch.Props.C46_int_truncated",
    "Birch.Props.C46_success",
    "Birch.Props.C46_any"
   ],
   "note": "Proved for the error, isMaster, whatsmyuri and buildInfo responses, also through bytes. The getLog response is made of the lines in order (C46_log_made) but loses its log when it is read (C46_log_lost), and a number below -2^31 is cut (C46_int_truncated). C46_any covers unmarshaling any document at all: it never panics."
  },
  {
   "property": "C47",
   "status": "partial",
   "theorems": [
    "Birch.Props.C47_basic_partial",
    "Birch.Props.C47_sampling_partial",
    "Birch.Props.C47_random_partial",
    "Birch.Props.C47_only_totals_partial",
    "Birch.Props.C47_interval_partial",
    "Birch.Props.C47_passthrough",
    "Birch.Props.C47_same_event",
    "Birch.Props.C47_reuse",
    "Birch.Props.C47_changes_events",
    "Birch.Props.C47_sampling_zero"
   ],
   "note": "The statement is false when one event object is added twice or changed between calls (C47_same_event, C47_reuse): the collectors keep and add into the caller's pointer. The _partial theorems cover every history of distinct, unshared events, for every sampling rate, clock and random source."
  },
  {
   "property": "C48",
   "status": "partial",
   "theorems": [
    "Birch.Props.C48_exactly",
    "Birch.Props.C48_forever",
    "Birch.Props.C48_progress_partial",
    "Birch.Props.C48_deadlock",
    "Birch.Props.C48_deadlock_context",
    "Birch.Props.C48_exclusive",
    "Birch.Props.C48_worker"
   ],
   "note": "The statement is false: after EndTest, Reset or the end of the context a worker can return with the lock held (C48_deadlock, C48_deadlock_context). C48_exactly says for every reachable state when a waiting call can get the lock; C48_progress_partial covers every execution without cancellation. C48_worker: there is one running worker from BeginIteration to EndTest or Reset, and else none."
  },
  {
   "property": "C49",
   "status": "proved",
   "theorems": [
    "Birch.Props.C49_counters",
    "Birch.Props.C49_gauges",
    "Birch.Props.C49_durations",
    "Birch.Props.C49_raw_iteration",
    "Birch.Props.C49_single",
    "Birch.Props.C49_end_test",
    "Birch.Props.C49_grouped_iteration",
    "Birch.Props.C49_silent",
    "Birch.Props.C49_grouped_lost",
    "Birch.Props.C49_raw_lost",
    "Birch.Props.C49_total",
    "Birch.Props.C49_raw_times",
    "Birch.Props.C49_single_times",
    "Birch.Props.C49_grouped_times"
   ],
   "note": "For every call sequence of the three recorders. C49_grouped_lost and C49_raw_lost show reports that never reach the collector."
  },
  {
   "property": "C50",
   "status": "partial",
   "theorems": [
    "Birch.Props.C50_marshal",
    "Birch.Props.C50_roundtrip_partial",
    "Birch.Props.C50_bytes_partial",
    "Birch.Props.C50_lost",
    "Birch.Props.C50_opts"
   ],
   "note": "The statement is false: id and the operations counter do not survive (C50_lost), times survive to the millisecond. C50_roundtrip_partial and C50_bytes_partial give every other field."
  },
  {
   "property": "C51",
   "status": "partial",
   "theorems": [
    "Birch.Props.C51_histories_partial",
    "Birch.Props.C51_len_diverges",
    "Birch.Props.C51_set_absent",
    "Birch.Props.C51_prepend",
    "Birch.Props.C51_validate",
    "Birch.Props.C51_nil"
   ],
   "note": "The statement is false for Len, which calls itself forever (C51_len_diverges), and for Set of an absent key, which does nothing (C51_set_absent); blist has no Lookup. C51_histories_partial covers every history in which Set is used on present keys."
  },
  {
   "property": "C52",
   "status": "proved",
   "theorems": [
    "Birch.Props.C52_validated_is_readable"
   ],
   "note": ""
  },
  {
   "property": "C53",
   "status": "partial",
   "theorems": [
    "Birch.Props.C53_conserved",
    "Birch.Props.C53_gauges",
    "Birch.Props.C53_id",
    "Birch.Props.C53_end_test",
    "Birch.Props.C53_lost",
    "Birch.Props.C53_iteration_not_counted"
   ],
   "note": "C53_conserved covers every interleaving without reset; C53_end_test says what EndTest records. The full statement is false: reports between a tick and EndTest are lost (C53_lost) and EndIteration counts no iteration (C53_iteration_not_counted)."
  },
  {
   "property": "C54",
   "status": "partial",
   "theorems": [
    "Birch.Props.C54_registers",
    "Birch.Props.C54_answered",
    "Birch.Props.C54_first_body",
    "Birch.Props.C54_kinds",
    "Birch.Props.C54_response_to"
   ],
   "note": "C54_answered covers both kinds of request, every document, every order of registration. The answer names request 0 instead of the request (C54_response_to); a reply without documents panics (C54_kinds)."
  },
  {
   "property": "C55",
   "status": "partial",
   "theorems": [
    "Birch.Props.C55_value",
    "Birch.Props.C55_minus",
    "Birch.Props.C55_document",
    "Birch.Props.C55_array",
    "Birch.Props.C55_json",
    "Birch.Props.C55_surrogate_swallows",
    "Birch.Props.C55_not_json_read",
    "Birch.Props.C55_integral_double"
   ],
   "note": "Which texts are read, and as what, is given exactly for all byte strings by the grammar of Spec/JsonText (C55_value, C55_document, C55_array). The grammar is wider than JSON (C55_not_json_read), an unpaired surrogate swallows the escape after it (C55_surrogate_swallows), doubles without a fraction become integers (C55_integral_double). strconv is a parameter."
  },
  {
   "property": "C56",
   "status": "partial",
   "theorems": [
    "Birch.Props.C56_accepts_json",
    "Birch.Props.C56_accepts",
    "Birch.Props.C56_counterexample"
   ],
   "note": "Every JSON text is accepted (C56_accepts_json); C56_accepts describes exactly what is accepted; C56_counterexample: minus signs without digits are."
  },
  {
   "property": "C57",
   "status": "partial",
   "theorems": [
    "Birch.Props.C57_roundtrip_partial",
    "Birch.Props.C57_same_partial",
    "Birch.Props.C57_double",
    "Birch.Props.C57_double_becomes_int",
    "Birch.Props.C57_key_counterexample"
   ],
   "note": "C57_roundtrip_partial covers every value with plain keys; C57_same_partial gives equality when there are no doubles, C57_double for doubles under stated assumptions on strconv. False for keys with quotes (C57_key_counterexample) and doubles without a fraction (C57_double_becomes_int)."
  },
  {
   "property": "C58",
   "status": "partial",
   "theorems": [
    "Birch.Props.C58_truncated_partial",
    "Birch.Props.C58_rejected",
    "Birch.Props.C58_accepted",
    "Birch.Props.C58_msg_panics",
    "Birch.Props.C58_msg_accepted",
    "Birch.Props.C58_msg_checksum",
    "Birch.Props.C58_killCursors_panics",
    "Birch.Props.C58_unknown"
   ],
   "note": "C58_truncated_partial covers all kinds but OP_MSG: a prefix is an error unless it is the message without its last documents; C58_rejected has the kinds where every prefix is an error. False otherwise: cuts between documents are accepted (C58_accepted), OP_MSG panics or accepts (C58_msg_panics, C58_msg_accepted, C58_msg_checksum); OP_KILL_CURSORS panics on a negative count (C58_killCursors_panics)."
  },
  {
   "property": "C59",
   "status": "partial",
   "theorems": [
    "Birch.Props.C59_marshal_partial",
    "Birch.Props.C59_array_partial",
    "Birch.Props.C59_value_partial",
    "Birch.Props.C59_unknown",
    "Birch.Props.C59_binary_wrong",
    "Birch.Props.C59_pointer_wrong",
    "Birch.Props.C59_decimal_wrong"
   ],
   "note": "Proved for documents, arrays and values of every nesting without binary data, pointers and decimals, with plain keys and finite doubles (rounded to six digits). Binary data and pointers are never written as the format says (C59_binary_wrong, C59_pointer_wrong), decimals have their halves exchanged (C59_decimal_wrong). The text of dates (package time) is a parameter."
  },
  {
   "property": "C60",
   "status": "partial",
   "theorems": [
    "Birch.Props.C60_roundtrip_partial",
    "Birch.Props.C60_array_partial",
    "Birch.Props.C60_value_partial",
    "Birch.Props.C60_same_partial",
    "Birch.Props.C60_int64_narrowed",
    "Birch.Props.C60_int32_widened",
    "Birch.Props.C60_binary_panics",
    "Birch.Props.C60_pointer_refused",
    "Birch.Props.C60_reserved_confused"
   ],
   "note": "C60_roundtrip_partial says what every document, array or value comes back as; C60_same_partial gives equality where types are kept. False: int64 becomes int32 and is cut below -2^31 (C60_int64_narrowed), the int32 2^31-1 becomes int64, reading binary data panics (C60_binary_panics), a nested document that begins with a reserved key becomes something else (C60_reserved_confused), pointers into the collection with the empty name are refused."
  },
  {
   "property": "C61",
   "status": "partial",
   "theorems": [
    "Birch.Props.C61_import_partial",
    "Birch.Props.C61_array_partial",
    "Birch.Props.C61_value_partial",
    "Birch.Props.C61_error",
    "Birch.Props.C61_panics",
    "Birch.Props.C61_error_keeps",
    "Birch.Props.C61_nul_key",
    "Birch.Props.C61_array_error",
    "Birch.Props.C61_value_error",
    "Birch.Props.C61_safe",
    "Birch.Props.C61_safe_array",
    "Birch.Props.C61_safe_value"
   ],
   "note": "C61_import_partial covers all JSON text in which no nested object begins with a reserved key and no key has NUL; C61_error, C61_array_error and C61_value_error all other text. C61_safe, C61_safe_array and C61_safe_value: no text panics unless it has a reserved key with a value of the wrong kind. False: reserved keys with values of the wrong kind panic (C61_panics), errors leave the fields before them (C61_error_keeps), keys with NUL are not refused (C61_nul_key)."
  },
  {
   "property": "C62",
   "status": "partial",
   "theorems": [
    "Birch.Props.C62_reads_partial",
    "Birch.Props.C62_array_partial",
    "Birch.Props.C62_value_partial",
    "Birch.Props.C62_binary_panics",
    "Birch.Props.C62_date_panics",
    "Birch.Props.C62_pointer_refused",
    "Birch.Props.C62_canonical_numbers",
    "Birch.Props.C62_extra_dropped",
    "Birch.Props.C62_code_empty"
   ],
   "note": "C62_reads_partial, C62_array_partial and C62_value_partial cover the relaxed format without binary data and pointers, all nestings and texts. False otherwise: binary data and canonical dates panic (C62_binary_panics, C62_date_panics), pointers are refused (C62_pointer_refused), canonical numbers become documents (C62_canonical_numbers), members after a reserved key are dropped (C62_extra_dropped, C62_code_empty). The text of dates (package time) and of floating point numbers (strconv) are parameters."
  },
  {
   "property": "C63",
   "status": "partial",
   "theorems": [
    "Birch.Props.C63_export_partial",
    "Birch.Props.C63_exportMap_partial",
    "Birch.Props.C63_decimal_swapped",
    "Birch.Props.C63_roundtrip_partial",
    "Birch.Props.C63_lost",
    "Birch.Props.C63_changed",
    "Birch.Props.C63_scope_lost",
    "Birch.Props.C63_duplicates_lost"
   ],
   "note": "C63_roundtrip_partial covers doubles, strings, booleans, dates, nulls, int32, int64, timestamps, arrays, and documents without repeated keys, up to field order; C63_export_partial covers everything but decimals. False otherwise: binary data, ids, regular expressions, pointers, code with scope and decimals become null or are refused (C63_lost), code and symbols become strings (C63_changed), earlier repeated keys are lost (C63_duplicates_lost), decimals are exported with halves exchanged (C63_decimal_swapped)."
  },
  {
   "property": "C64",
   "status": "partial",
   "theorems": [
    "Birch.Props.C64_builds",
    "Birch.Props.C64_builds_err",
    "Birch.Props.C64_unsupported",
    "Birch.Props.C64_nested_lost",
    "Birch.Props.C64_map_refuses",
    "Birch.Props.C64_slice",
    "Birch.Props.C64_slice_lenient",
    "Birch.Props.C64_document",
    "Birch.Props.C64_not_document",
    "Birch.Props.C64_truncated_reader",
    "Birch.Props.C64_failing_marshaler",
    "Birch.Props.C64_element_key_ignored",
    "Birch.Props.C64_element_corrupted",
    "Birch.Props.C64_array_becomes_document"
   ],
   "note": "C64_builds and C64_builds_err cover all supported Go values; C64_unsupported the others. False: an error deep inside a slice or map is not reported (C64_nested_lost), *Element ignores the key (C64_element_key_ignored) or is corrupted (C64_element_corrupted), *Array becomes a document (C64_array_becomes_document). float32 widening is a parameter; *jsonx.Document and typed nil pointers are not modelled; integers below -2^31 in an int: see C23."
  },
  {
   "property": "C65",
   "status": "partial",
   "theorems": [
    "Birch.Props.C65_unmarshalDocument",
    "Birch.Props.C65_unmarshalDocument_invalid",
    "Birch.Props.C65_unmarshalBSON",
    "Birch.Props.C65_map_disagrees",
    "Birch.Props.C65_marshal_keys_ignored",
    "Birch.Props.C65_validate_keys_unchecked",
    "Birch.Props.C65_validate_reports",
    "Birch.Props.C65_roundtrip",
    "Birch.Props.C65_error_changes_map",
    "Birch.Props.C65_error_changes_document",
    "Birch.Props.C65_document_read",
    "Birch.Props.C65_unmarshal_any_partial",
    "Birch.Props.C65_unmarshal_strings"
   ],
   "note": "C65_unmarshalDocument, C65_unmarshalBSON, C65_roundtrip, C65_unmarshal_strings and C65_unmarshal_any_partial (without decimals) cover reading and writing; C65_validate_reports and C65_unmarshalDocument_invalid cover invalid elements. False: repeated keys are resolved differently from Map (C65_map_disagrees), Validate ignores the keys of the map (C65_validate_keys_unchecked, C65_marshal_keys_ignored), a failing UnmarshalBSON has changed the map or the document (C65_error_changes_map, C65_error_changes_document)."
  },
  {
   "property": "C66",
   "status": "partial",
   "theorems": [
    "Birch.Props.C66_table_partial",
    "Birch.Props.C66_complete",
    "Birch.Props.C66_schema_change",
    "Birch.Props.C66_files_partial",
    "Birch.Props.C66_names_not_compared",
    "Birch.Props.C66_fields"
   ],
   "note": "C66_table_partial, C66_complete, C66_schema_change and C66_files_partial hold when a change of metrics changes their number. False otherwise: only the number of metrics is compared, so rows can stand under the names of other metrics (C66_names_not_compared). Doubles are written as the integers with their bits, dates with whole seconds (C66_fields)."
  },
  {
   "property": "C67",
   "status": "partial",
   "theorems": [
    "Birch.Props.C67_rows_partial",
    "Birch.Props.C67_numbers_partial",
    "Birch.Props.C67_columns_mixed",
    "Birch.Props.C67_width_change",
    "Birch.Props.C67_read_error",
    "Birch.Props.C67_flush_error_lost",
    "Birch.Props.C67_roundtrip_partial"
   ],
   "note": "C67_rows_partial (rows of the width of the header, no collisions of fingerprints), C67_numbers_partial (all fields are numbers) and C67_roundtrip_partial (after WriteCSV, without dates); C67_read_error for files that cannot be read to the end. False: after a record of another width nothing more is recorded, and the next record of the first width is an error (C67_width_change); an error of the final flush is lost (C67_flush_error_lost); rows with other columns can be read back under wrong names (C67_columns_mixed)."
  },
  {
   "property": "C68",
   "status": "partial",
   "theorems": [
    "Birch.Props.C68_add",
    "Birch.Props.C68_bson",
    "Birch.Props.C68_json_partial",
    "Birch.Props.C68_empty",
    "Birch.Props.C68_streaming_stuck",
    "Birch.Props.C68_dynamic_stuck",
    "Birch.Props.C68_flush",
    "Birch.Props.C68_flush_nothing",
    "Birch.Props.C68_streaming_flush_partial",
    "Birch.Props.C68_dynamic_compressed"
   ],
   "note": "C68_add (what is taken, for all histories), C68_bson, C68_json_partial (documents of C59), C68_empty, C68_flush and C68_flush_nothing (failing writers), C68_streaming_flush_partial (when the caller flushes). False: the streaming collectors never flush by themselves and refuse everything after the limit (C68_streaming_stuck); the metadata is written before every batch (C68_streaming_flush_partial); after the first change of the schema the dynamic ones write compressed FTDC chunks after the documents (C68_dynamic_compressed)."
  },
  {
   "property": "C69",
   "status": "partial",
   "theorems": [
    "Birch.Props.C69_written_partial",
    "Birch.Props.C69_rest_lost",
    "Birch.Props.C69_not_a_document",
    "Birch.Props.C69_write",
    "Birch.Props.C69_close_fails"
   ],
   "note": "C69_written_partial (on C37: numbers that are kept, no collisions of fingerprints), C69_write, C69_not_a_document. False: what is after the first document of a call is dropped, although it is counted (C69_rest_lost), and the writer is not closed if the last flush fails (C69_close_fails)."
  },
  {
   "property": "C70",
   "status": "partial",
   "theorems": [
    "Birch.Props.C70_sampled",
    "Birch.Props.C70_first",
    "Birch.Props.C70_apart",
    "Birch.Props.C70_refused"
   ],
   "note": "C70_sampled (all clocks), C70_first, C70_apart (clocks that do not go back). False: a call that the inner collector refuses also starts an interval (C70_refused)."
  },
  {
   "property": "C71",
   "status": "partial",
   "theorems": [
    "Birch.Props.C71_order",
    "Birch.Props.C71_complete",
    "Birch.Props.C71_stops",
    "Birch.Props.C71_progress",
    "Birch.Props.C71_calls",
    "Birch.Props.C71_panics",
    "Birch.Props.C71_resolve_early",
    "Birch.Props.C71_resolve"
   ],
   "note": "C71_order, C71_complete, C71_stops, C71_progress, C71_calls, C71_resolve. False: Add can panic after the end of the context, since the goroutine closes the channel to which the callers send (C71_panics), and Resolve does not wait for the items in the channel (C71_resolve_early). Progress is that a step is possible, not that a fair scheduler makes it."
  },
  {
   "property": "C72",
   "status": "partial",
   "theorems": [
    "Birch.Props.C72_linearizable",
    "Birch.Props.C72_exclusive",
    "Birch.Props.C72_progress",
    "Birch.Props.C72_flush_loses"
   ],
   "note": "C72_linearizable, C72_exclusive, C72_progress. False: FlushCollector calls Info, Resolve and Reset one after the other, and a sample added between Resolve and Reset is lost (C72_flush_loses)."
  },
  {
   "property": "C73",
   "status": "partial",
   "theorems": [
    "Birch.Props.C73_accepted_panics",
    "Birch.Props.C73_fixed",
    "Birch.Props.C73_lengths_partial"
   ],
   "note": "C73_fixed: for the types of fixed size and regular expressions it holds, whatever the bytes. C73_lengths_partial: for the types with lengths inside, the accessor returns exactly if the lengths fit and panics otherwise. False in general: accepted documents with a binary of negative length, a subtype 2 binary with a wrong inner length, an empty pointer or an empty code string panic (C73_accepted_panics). Data of 2^31-1 bytes and more is left out."
  },
  {
   "property": "C74",
   "status": "partial",
   "theorems": [
    "Birch.Props.C74_order",
    "Birch.Props.C74_errors",
    "Birch.Props.C74_real",
    "Birch.Props.C74_ends",
    "Birch.Props.C74_late",
    "Birch.Props.C74_lost",
    "Birch.Props.C74_break"
   ],
   "note": "C74_order, C74_errors (once the goroutines have ended), C74_real, C74_ends (a bound on all schedules, and no deadlock). False: the channels are closed before the errors are pushed, so Close after the loop may return nil for damaged bytes (C74_late), ReadMetrics and its kin can lose the error for good (C74_lost), and leaving the loop early may be reported as context canceled (C74_break). One loop per iterator; panics of goroutines end the process; Metadata is left out."
  },
  {
   "property": "C75",
   "status": "partial",
   "theorems": [
    "Birch.Props.C75_fields",
    "Birch.Props.C75_wire_partial",
    "Birch.Props.C75_upconverted",
    "Birch.Props.C75_flags_partial",
    "Birch.Props.C75_reply_wrong",
    "Birch.Props.C75_msg_wrong",
    "Birch.Props.C75_unnamed_panics",
    "Birch.Props.C75_response_partial"
   ],
   "note": "C75_fields, C75_wire_partial (from the bytes), C75_upconverted: the fields are right, for the types that have a model. C75_flags_partial and C75_response_partial say for exactly which flags the rest is right. False: OP_REPLY and OP_MSG flags are taken as numbers and mixed up, so that replies without flags are shown as CursorNotFound (C75_reply_wrong) and messages without checksum with one (C75_msg_wrong); an empty body panics (C75_unnamed_panics); OP_GET_MORE, OP_KILL_CURSORS and OP_COMMAND_REPLY have no model."
  },
  {
   "property": "C76",
   "status": "proved",
   "theorems": [
    "Birch.Props.C76_batch",
    "Birch.Props.C76_streaming",
    "Birch.Props.C76_dynamic_partial",
    "Birch.Props.C76_written",
    "Birch.Props.C76_read",
    "Birch.Props.C76_documents",
    "Birch.Props.C76_damaged",
    "Birch.Props.C76_others"
   ],
   "note": "C76_written (the exact bytes, for the base collector; C76_batch and C76_streaming: those of batch and streaming collectors, with how many documents are in each chunk, its time and its metadata; beyond the samples of one shape that are claimed, C76_dynamic_partial: those of a dynamic collector whose keys change, but do not change back, and which has no metadata) and C76_read. The layout is stated in Spec/FtdcLayout without the model. Doubles are stored as this library stores them, as the bits of the floating-point difference (the MongoDB server truncates them to integers), see C33_doubles_differ. C76_documents: which documents of any file are metadata, chunks or passed over; C76_others; C76_damaged: a chunk whose data are not binary or too short panics."
  },
  {
   "property": "C77",
   "status": "partial",
   "theorems": [
    "Birch.Props.C77_dispatch",
    "Birch.Props.C77_messages_partial",
    "Birch.Props.C77_closed",
    "Birch.Props.C77_replies",
    "Birch.Props.C77_reply_lost",
    "Birch.Props.C77_out_of_order",
    "Birch.Props.C77_no_crash",
    "Birch.Props.C77_handler_panic",
    "Birch.Props.C77_completes",
    "Birch.Props.C77_cancelled",
    "Birch.Props.C77_quiet",
    "Birch.Props.C77_run",
    "Birch.Props.C77_run_waits",
    "Birch.Props.C77_run_spins"
   ],
   "note": "C77_dispatch (any bytes), C77_messages_partial (messages of the protocol, with the segmentations of C42), C77_closed, C77_replies, C77_no_crash, C77_completes, C77_run. False: replies are lost if the client half-closes after its request (C77_reply_lost, for every conversation), come out of order (C77_out_of_order), a panic in a handler ends the process (C77_handler_panic), after cancellation a handler may get a message that was never sent (C77_cancelled), Run does not return while Accept waits (C77_run_waits) and spins on a broken listener (C77_run_spins). TLS and panicking error handlers are left out."
  },
  {
   "property": "C78",
   "status": "partial",
   "theorems": [
    "Birch.Props.C78_add",
    "Birch.Props.C78_document_partial",
    "Birch.Props.C78_unmarshal",
    "Birch.Props.C78_roundtrip",
    "Birch.Props.C78_kept",
    "Birch.Props.C78_accepted_refused",
    "Birch.Props.C78_int_truncated"
   ],
   "note": "Proved for all points whose values stand for BSON values. False, with witnesses for all such values: []bool, []uint32, []uint64 and uint64 from 2^63 on are accepted by Add but then nothing can be written (C78_accepted_refused); an int below -2^31 is written as another number (C78_int_truncated); only int64, int32, float64, bool and whole-millisecond times keep their type and value (C78_kept)."
  },
  {
   "property": "C79",
   "status": "partial",
   "theorems": [
    "Birch.Props.C79_event",
    "Birch.Props.C79_recorded",
    "Birch.Props.C79_errors",
    "Birch.Props.C79_interval_ignored",
    "Birch.Props.C79_lost",
    "Birch.Props.C79_document"
   ],
   "note": "Proved for all call sequences and any histogram library. Two parts are false and their negations are proved: the interval of the grouped recorder is dropped by its constructor, so with every interval every iteration is handed on (C79_interval_ignored); what was reported without an iteration or time is dropped at EndTest (C79_lost)."
  },
  {
   "property": "C80",
   "status": "partial",
   "theorems": [
    "Birch.Props.C80_events",
    "Birch.Props.C80_conserved",
    "Birch.Props.C80_exactly",
    "Birch.Props.C80_progress_partial",
    "Birch.Props.C80_deadlock",
    "Birch.Props.C80_counted_twice",
    "Birch.Props.C80_lost",
    "Birch.Props.C80_worker"
   ],
   "note": "Proved for every execution: events, the event being filled and results are those of the history under the lock (C80_events); nothing reported is lost or duplicated while nothing is reset (C80_conserved); a waiting call can get the lock exactly if no worker has taken it under a context that is done (C80_exactly, C80_progress_partial). False, proved: the lock can be lost forever after EndTest (C80_deadlock); EndTest records an iteration's total duration a second time (C80_counted_twice); reports between a tick and EndTest without a new iteration, and IDs set before a tick, are lost (C80_lost)."
  },
  {
   "property": "C81",
   "status": "partial",
   "theorems": [
    "Birch.Props.C81_linearizable",
    "Birch.Props.C81_exclusive",
    "Birch.Props.C81_progress_partial",
    "Birch.Props.C81_panic_blocks",
    "Birch.Props.C81_performance",
    "Birch.Props.C81_collector",
    "Birch.Props.C81_shim",
    "Birch.Props.C81_shim_begin"
   ],
   "note": "Proved for every execution: linearizability, one call at a time, progress without panics (C81_linearizable, C81_exclusive, C81_progress_partial, C81_collector, C81_performance). False, proved: after a panic inside, every call of the synchronized recorder blocks forever (C81_panic_blocks); the shim never starts or stops the timer through the Recorder interface (C81_shim)."
  },
  {
   "property": "C82",
   "status": "partial",
   "theorems": [
    "Birch.Props.C82_counters",
    "Birch.Props.C82_rest",
    "Birch.Props.C82_sum_partial",
    "Birch.Props.C82_lost",
    "Birch.Props.C82_taken",
    "Birch.Props.C82_rate_zero",
    "Birch.Props.C82_basic",
    "Birch.Props.C82_document"
   ],
   "note": "Proved for every sequence: what each collection returns (C82_counters, C82_rest), the document (C82_document), and that deltas add up while the clock moves and nobody else collects (C82_sum_partial). False, proved: two collections at the same time lose what was counted between them (C82_lost); a collection of any other kind takes it away (C82_taken); rates are in counts for each nanosecond and zero below 10^9 a second (C82_rate_zero). Left out: the rest of the map of CollectBasicGoStats."
  },
  {
   "property": "C83",
   "status": "partial",
   "theorems": [
    "Birch.Props.C83_bounded",
    "Birch.Props.C83_processes",
    "Birch.Props.C83_parallel_never",
    "Birch.Props.C83_lost",
    "Birch.Props.C83_crash"
   ],
   "note": "Proved for every schedule: executions are finite (C83_bounded); CollectAllProcesses returns a permutation of all results if no process makes it panic (C83_processes). False, proved: generate with RunParallelCollectors never returns, as the channel it ranges over is never closed (C83_parallel_never); a collector that panics ends its worker, and those after it may never run (C83_lost); a panic in CollectAllProcesses ends the program (C83_crash)."
  },
  {
   "property": "C84",
   "status": "partial",
   "theorems": [
    "Birch.Props.C84_validate",
    "Birch.Props.C84_default",
    "Birch.Props.C84_default_values",
    "Birch.Props.C84_invalid",
    "Birch.Props.C84_files_partial",
    "Birch.Props.C84_any",
    "Birch.Props.C84_lost",
    "Birch.Props.C84_lost_shape",
    "Birch.Props.C84_numbered"
   ],
   "note": "C84_validate/C84_default/C84_invalid: the options. C84_files_partial: nothing fails, exact contents of each file. C84_numbered: the files are those created with the numbers from zero, without gaps. C84_any: with any failures the files hold an initial part of the samples taken and at most the last SampleCount+1 are missing, none if nil is returned (then a file is left open). False, proved: an error of generate or a sample with other numbers makes it return without writing what the collector holds (C84_lost, C84_lost_shape). When the timers fire is not modelled (any order). With RunParallelCollectors generate does not return at all (C83_parallel_never)."
  },
  {
   "property": "C85",
   "status": "partial",
   "theorems": [
    "Birch.Props.C85_validate",
    "Birch.Props.C85_scan",
    "Birch.Props.C85_long",
    "Birch.Props.C85_complete_partial",
    "Birch.Props.C85_only",
    "Birch.Props.C85_bounded",
    "Birch.Props.C85_ends",
    "Birch.Props.C85_all",
    "Birch.Props.C85_error_lost",
    "Birch.Props.C85_cancel_lost",
    "Birch.Props.C85_skipped",
    "Birch.Props.C85_leak",
    "Birch.Props.C85_crash",
    "Birch.Props.C85_panic_nil",
    "Birch.Props.C85_follow",
    "Birch.Props.C85_follow_fails",
    "Birch.Props.C85_follow_ends",
    "Birch.Props.C85_follow_lost"
   ],
   "note": "C85_validate; C85_scan: lines are read as they are; C85_complete_partial: nil means all lines are samples and are kept, if no line panics and, for files, the context is not cancelled; C85_only, C85_bounded, C85_ends, C85_all. False, proved: a line of 65536 bytes silently ends the input (C85_long); after a line that is an error or a cancellation the samples since the last flush are lost (C85_error_lost, C85_cancel_lost); with a file and a cancelled context nil can be returned with samples skipped (C85_skipped); a reader's goroutine can be left waiting forever (C85_leak); a panic in the goroutine crashes the program, as the recovering function sends to a closed channel (C85_crash), or nil is returned (C85_panic_nil); following a file never reads what is appended after the first write (C85_follow, C85_follow_lost). C85_follow_fails: the first line that is refused is the last that is handed over. The parsing of a line is a parameter."
  },
  {
   "property": "C86",
   "status": "partial",
   "theorems": [
    "Birch.Props.C86_process",
    "Birch.Props.C86_system",
    "Birch.Props.C86_sample",
    "Birch.Props.C86_shape",
    "Birch.Props.C86_shape_exactly",
    "Birch.Props.C86_process_info",
    "Birch.Props.C86_process_gone",
    "Birch.Props.C86_blank",
    "Birch.Props.C86_system_info",
    "Birch.Props.C86_disks_mixed",
    "Birch.Props.C86_disks_order",
    "Birch.Props.C86_collector_nil",
    "Birch.Props.C86_children"
   ],
   "note": "Proved for all answers and samples. Negations proved with witnesses: C86_disks_mixed and C86_disks_order (which disk is which is not kept), C86_collector_nil and the panic in C86_system_info. Partial because reading the operating system (gopsutil) and float64 to int64 conversion are parameters, and the documents are for names shorter than 2^30 bytes and ints from -2^31 on."
  },
  {
   "property": "C87",
   "status": "partial",
   "theorems": [
    "Birch.Props.C87_writes",
    "Birch.Props.C87_frame",
    "Birch.Props.C87_frame_document",
    "Birch.Props.C87_copy",
    "Birch.Props.C87_independent",
    "Birch.Props.C87_shared",
    "Birch.Props.C87_not_independent",
    "Birch.Props.C87_document_copy",
    "Birch.Props.C87_value",
    "Birch.Props.C87_value_nil",
    "Birch.Props.C87_subdocument",
    "Birch.Props.C87_read",
    "Birch.Props.C87_marshal",
    "Birch.Props.C87_marshal_overwrites",
    "Birch.Props.C87_open",
    "Birch.Props.C87_open_panics",
    "Birch.Props.C87_open_calm",
    "Birch.Props.C87_open_again",
    "Birch.Props.C87_cycle",
    "Birch.Props.C87_acyclic"
   ],
   "note": "Proved for all worlds of objects. False as stated, with witnesses: C87_not_independent (a copy of an opened element shares its document), C87_marshal_overwrites (element.go:228 and 258 write into the bytes of code with scope, so the bytes read from and other copies become invalid). C87_cycle: a document that contains itself has no tree, so marshalling never ends. Partial because copies and marshalling are so only under these conditions; single-threaded."
  },
  {
   "property": "C88",
   "status": "partial",
   "theorems": [
    "Birch.Props.C88_sample",
    "Birch.Props.C88_map_order",
    "Birch.Props.C88_refused",
    "Birch.Props.C88_foreign",
    "Birch.Props.C88_error_keeps",
    "Birch.Props.C88_negative_length_panics",
    "Birch.Props.C88_metadata",
    "Birch.Props.C88_collected",
    "Birch.Props.C88_int_maps_lost",
    "Birch.Props.C88_unknown_dropped",
    "Birch.Props.C88_nested_swapped"
   ],
   "note": "Proved for all samples that stand for a document. False for maps of integers, which are taken and recorded as empty documents (C88_int_maps_lost: util.go:32 hands them to DC.Interface, which has no case for them), for entries of unknown types such as time.Duration (C88_unknown_dropped) and for maps inside maps, whose values change places between two visits (C88_nested_swapped). A sample of bytes with a negative length panics (C88_negative_length_panics). Left out: nil pointers of the named types, an *Element as a sample."
  },
  {
   "property": "C89",
   "status": "partial",
   "theorems": [
    "Birch.Props.C89_series",
    "Birch.Props.C89_every_metric_partial",
    "Birch.Props.C89_lost",
    "Birch.Props.C89_unregistered",
    "Birch.Props.C89_registered",
    "Birch.Props.C89_any_payload"
   ],
   "note": "Proved for the last metric of each key of all chunks and, if the keys differ, for all metrics (C89_every_metric_partial; they differ for documents of one level of nesting by C38). False if two metrics have the same key: only the last has a series (C89_lost). Without a registered marshaler, as at the start of a program, ReadSeries panics on all that a collector writes (C89_unregistered). C89_any_payload: whatever the marshaler is."
  },
  {
   "property": "C90",
   "status": "partial",
   "theorems": [
    "Birch.Props.C90_jsonx_partial",
    "Birch.Props.C90_other",
    "Birch.Props.C90_other_panics",
    "Birch.Props.C90_nil_panics",
    "Birch.Props.C90_timestamp_refused",
    "Birch.Props.C90_at",
    "Birch.Props.C90_copy",
    "Birch.Props.C90_copy_array",
    "Birch.Props.C90_copy_appended",
    "Birch.Props.C90_copy_array_appended",
    "Birch.Props.C90_copy_shares",
    "Birch.Props.C90_copy_changes",
    "Birch.Props.C90_copy_nil"
   ],
   "note": "Proved for documents with numbers of type int and float64 (C90_jsonx_partial). False with numbers of type int32, int64 or float32, which are never converted (C90_other): DC.JSONX and both Interface constructors then panic (C90_other_panics), also for the timestamps in the form MarshalJSON gives them (C90_timestamp_refused). Values that are nil panic (C90_nil_panics). ElementAtIndex panics on negative indices (C90_at). Copies are independent in what is new in them (C90_copy, C90_copy_array; what they show after appending: C90_copy_appended, C90_copy_array_appended), but inner documents and arrays are shared (C90_copy_shares, C90_copy_changes), and elements without a value cannot be copied (C90_copy_nil)."
  },
  {
   "property": "C91",
   "status": "partial",
   "theorems": [
    "Birch.Props.C91_same",
    "Birch.Props.C91_element_at",
    "Birch.Props.C91_out_of_bounds",
    "Birch.Props.C91_unterminated",
    "Birch.Props.C91_returns",
    "Birch.Props.C91_endless",
    "Birch.Props.C91_loops",
    "Birch.Props.C91_refused",
    "Birch.Props.C91_negative"
   ],
   "note": "ElementAt is as claimed for all bytes (C91_same, C91_element_at, C91_out_of_bounds, C91_unterminated, C91_returns); it returns even where reading all elements does not end, and there it finds an element for every number (C91_endless). False for the iterator: with a negative length it goes on where ElementAt gives an error, and can panic (C91_negative); and loops over one iterator share the position, so a second one sees only what is left (C91_loops). What a loop sees after one that ended with an error is not modelled."
  },
  {
   "property": "C92",
   "status": "partial",
   "theorems": [
    "Birch.Props.C92_round_trip",
    "Birch.Props.C92_accepts",
    "Birch.Props.C92_null",
    "Birch.Props.C92_twelve",
    "Birch.Props.C92_error_changes",
    "Birch.Props.C92_error_keeps",
    "Birch.Props.C92_must",
    "Birch.Props.C92_zero",
    "Birch.Props.C92_distinct",
    "Birch.Props.C92_text"
   ],
   "note": "The round trip and the accepted texts are as claimed for texts of every length but 12 (C92_round_trip, C92_accepts, C92_must, C92_zero, C92_distinct). False for texts of 12 bytes, all of which are accepted and become the id (C92_twelve), and for an error in the digits, before which the bytes so far are written (C92_error_changes); other errors keep the id (C92_error_keeps). null is an error (C92_null). encoding/json is a parameter."
  },
  {
   "property": "C93",
   "status": "partial",
   "theorems": [
    "Birch.Props.C93_read",
    "Birch.Props.C93_file",
    "Birch.Props.C93_base",
    "Birch.Props.C93_streaming",
    "Birch.Props.C93_batch_partial",
    "Birch.Props.C93_dynamic_partial",
    "Birch.Props.C93_flush_removes",
    "Birch.Props.C93_streaming_dynamic_removes",
    "Birch.Props.C93_streaming_dynamic",
    "Birch.Props.C93_flush_keeps",
    "Birch.Props.C93_reset",
    "Birch.Props.C93_flush_resets",
    "Birch.Props.C93_set_only",
    "Birch.Props.C93_batch_read"
   ],
   "note": "Reading is as claimed for every file (C93_read, C93_file), and base and streaming collectors keep what was set (C93_base, C93_streaming); every chunk of a batch collector is read with its metadata (C93_batch_read). False for batch and dynamic collectors, which lose the metadata when they are reset or flushed (C93_flush_removes; without such calls C93_batch_partial, C93_dynamic_partial), and for streaming dynamic collectors when they are flushed (C93_streaming_dynamic_removes). Compression is a parameter."
  },
  {
   "property": "C94",
   "status": "partial",
   "theorems": [
    "Birch.Props.C94_values_partial",
    "Birch.Props.C94_elements_partial",
    "Birch.Props.C94_not_too_small",
    "Birch.Props.C94_byte_panics"
   ],
   "note": "As claimed while the end of the bytes is below 2^63 (C94_values_partial, C94_elements_partial), for every encoder and every Element method, with uint and int arithmetic as on a 64-bit machine; beyond that nothing is written. False from there on: the sum turns negative, the check passes and the encoder panics (C94_not_too_small, C94_byte_panics). This also shows that the unbounded positions of Model/Elements, which the rest of the model uses, lose nothing below 2^63."
  },
  {
   "property": "C95",
   "status": "partial",
   "theorems": [
    "Birch.Props.C95_marshal",
    "Birch.Props.C95_kept_partial",
    "Birch.Props.C95_exact",
    "Birch.Props.C95_key_becomes_value",
    "Birch.Props.C95_fields_from_key",
    "Birch.Props.C95_not_as_given",
    "Birch.Props.C95_regex_options_lost",
    "Birch.Props.C95_subtype_refused"
   ],
   "note": "C95_marshal says exactly what is marshalled for every list of scalar elements, with NULs anywhere: each element is cut off after as many bytes as the type, the key up to its first NUL and the value take. Without NULs that is the document given (C95_kept_partial), and with a NUL in a key or a regular expression it never is (C95_exact); an undefined binary subtype gives an error (C95_subtype_refused). The claim is false with NULs: the bytes of the key become the value (C95_key_becomes_value), any fields at all can be brought in through one key (C95_fields_from_key, C95_not_as_given), and a regular expression loses its options (C95_regex_options_lost). Documents, arrays and code with scope under keys with NULs: C107."
  },
  {
   "property": "C96",
   "status": "partial",
   "theorems": [
    "Birch.Props.C96_document",
    "Birch.Props.C96_array_partial",
    "Birch.Props.C96_array_opened",
    "Birch.Props.C96_constructed",
    "Birch.Props.C96_deleted",
    "Birch.Props.C96_unopened",
    "Birch.Props.C96_panics",
    "Birch.Props.C96_texts",
    "Birch.Props.C96_code"
   ],
   "note": "True of documents (C96_document) and of arrays still in their bytes (C96_array_partial). False otherwise: an opened or constructed array is written under the keys its values carry (C96_array_opened says when that is right), so no position is found in the reader of a constructed array (C96_constructed) and positions have a gap after Delete (C96_deleted). For other types the first four bytes are taken for a length, whatever they are (C96_unopened): strings lose four bytes (C96_texts), most scalars panic (C96_panics), code with scope changes its meaning when opened (C96_code)."
  },
  {
   "property": "C97",
   "status": "partial",
   "theorems": [
    "Birch.Props.C97_valid",
    "Birch.Props.C97_left_panics",
    "Birch.Props.C97_stays",
    "Birch.Props.C97_left",
    "Birch.Props.C97_boolean",
    "Birch.Props.C97_binary",
    "Birch.Props.C97_behind",
    "Birch.Props.C97_key"
   ],
   "note": "True: without an error no loop gets one and leaving loops does no harm (C97_valid); after an error no later loop ends without an error (C97_stays); after a key that does not end, later loops get only an error (C97_key). False: later loops get the elements behind a bad boolean (C97_boolean) and read the payload of a binary of unknown subtype as elements of the document (C97_binary), in general what follows the skipped bytes of any bad value (C97_behind); a later loop that is left at an element panics because its body is called again (C97_left, C97_left_panics)."
  },
  {
   "property": "C98",
   "status": "partial",
   "theorems": [
    "Birch.Props.C98_spared",
    "Birch.Props.C98_spared_ends",
    "Birch.Props.C98_unmarshal",
    "Birch.Props.C98_delete",
    "Birch.Props.C98_delete_all",
    "Birch.Props.C98_set",
    "Birch.Props.C98_reset"
   ],
   "note": "True as long as the document's elements are spared, i.e. it is only added to or unmarshalled into, and anything is done to other documents (C98_spared, C98_spared_ends); UnmarshalDocument appends, and ends also for the document itself (C98_unmarshal). False otherwise: deleting the current element skips the next and repeats the last (C98_delete), deleting every element one gets leaves every other one (C98_delete_all), Set of a later key is seen (C98_set), Reset makes all later turns get nil (C98_reset)."
  },
  {
   "property": "C99",
   "status": "partial",
   "theorems": [
    "Birch.Props.C99_kept",
    "Birch.Props.C99_apart",
    "Birch.Props.C99_read",
    "Birch.Props.C99_read_short",
    "Birch.Props.C99_reader",
    "Birch.Props.C99_marshal_partial",
    "Birch.Props.C99_text",
    "Birch.Props.C99_stale",
    "Birch.Props.C99_not_clean"
   ],
   "note": "Results are never changed by later calls and share no memory with each other or with the pool (C99_kept, C99_apart); ReadFrom, NewFromIOReader, Array.String and the buffers of ftdc return what came or was written (C99_read, C99_read_short, C99_reader, C99_text), Array.MarshalBSON the bytes of BSON for proper values (C99_marshal_partial). False for the value of an element whose key contains a NUL: Array.MarshalBSON then returns bytes of what the buffer contained before, unless the slice type outside the repository clears them (C99_stale, C99_not_clean)."
  },
  {
   "property": "C100",
   "status": "partial",
   "theorems": [
    "Birch.Props.C100_document_partial",
    "Birch.Props.C100_decimal",
    "Birch.Props.C100_array_partial",
    "Birch.Props.C100_reader_partial",
    "Birch.Props.C100_cut",
    "Birch.Props.C100_unknown_partial",
    "Birch.Props.C100_reader_safe",
    "Birch.Props.C100_panics",
    "Birch.Props.C100_told_apart_partial",
    "Birch.Props.C100_forged",
    "Birch.Props.C100_order",
    "Birch.Props.C100_types",
    "Birch.Props.C100_array_forged",
    "Birch.Props.C100_array_numbers"
   ],
   "note": "For values without decimals, Document.String prints exactly the text of the specification (C100_document_partial), Reader.String that of the first document in the bytes (C100_reader_partial), Array.String its own (C100_array_partial). Reader.String never panics (C100_reader_safe). Documents of simple values whose keys have no quotation marks are told apart by their texts (C100_told_apart_partial). False otherwise: decimals print with their halves exchanged (C100_decimal), Document.String panics on bytes that ReadDocument accepts (C100_panics), Reader.String prints incomplete documents as if they were complete (C100_cut, C100_unknown_partial), keys are not quoted, so that one element looks like two (C100_forged), the order, the types and earlier duplicates of nested fields and the subtypes of binaries are not shown (C100_order, C100_types), and arrays print numbers as %!s(int32=5) and strings without quotes (C100_array_numbers, C100_array_forged)."
  },
  {
   "property": "C101",
   "status": "partial",
   "theorems": [
    "Birch.Props.C101_numbers",
    "Birch.Props.C101_safe",
    "Birch.Props.C101_accepts",
    "Birch.Props.C101_values",
    "Birch.Props.C101_same",
    "Birch.Props.C101_trailing",
    "Birch.Props.C101_mismatch",
    "Birch.Props.C101_cut",
    "Birch.Props.C101_bomb",
    "Birch.Props.C101_file_cut",
    "Birch.Props.C101_stops"
   ],
   "note": "The reader of numbers is characterised exactly (C101_numbers), and so are the chunks that are read (C101_accepts) and their values (C101_values, C101_same). No bytes make it panic (C101_safe), a wrong number of metrics is found out (C101_mismatch), every proper prefix of a chunk's data gives an error (C101_cut), and a damaged chunk ends the reading with an error after the chunks before it (C101_stops). Not as claimed: a run of zeros that is too long and bytes after the last difference are accepted silently (C101_same, C101_trailing), a file cut right after the four bytes of a document's length ends without an error (C101_file_cut), and 19 bytes make the reader build 2 to the 32 samples of every metric (C101_bomb). The first sample is assumed to be well formed."
  },
  {
   "property": "C102",
   "status": "partial",
   "theorems": [
    "Birch.Props.C102_reads",
    "Birch.Props.C102_only",
    "Birch.Props.C102_canonical",
    "Birch.Props.C102_unique",
    "Birch.Props.C102_validates",
    "Birch.Props.C102_slack",
    "Birch.Props.C102_marshals",
    "Birch.Props.C102_code_repaired",
    "Birch.Props.C102_truncates",
    "Birch.Props.C102_unterminated"
   ],
   "note": "A grammar that mentions no function of the model (Spec/Accept) is proved to be exactly what ReadDocument accepts (C102_reads, C102_only) and, applied at every depth, exactly what Reader.Validate accepts, together with the size it returns (C102_validates). The grammar is looser than the claim: the document may end before its declared length, and Validate then returns less than that length (C102_slack); strings need not end in a NUL, and such a document can not be marshalled any more (C102_unterminated); an embedded document is any bytes for ReadDocument; a code with scope may declare a length below 4 and ends the document inside of its own length. Marshalling is characterised exactly (C102_marshals): an embedded document that ends early is cut behind its final zero but keeps its declared length, so a document that passed Validate is marshalled into bytes ReadDocument refuses (C102_truncates). The bytes determine the elements (C102_unique); canonical encodings follow the grammar (C102_canonical). A code with scope is written with a new length, computed from the length its scope declares, which repairs bytes left over behind the scope (C102_code_repaired); the statement about marshalling leaves out codes with scope whose own length is below 4 or whose code has a negative length."
  },
  {
   "property": "C103",
   "status": "partial",
   "theorems": [
    "Birch.Props.C103_base_partial",
    "Birch.Props.C103_batch_partial",
    "Birch.Props.C103_streaming_partial",
    "Birch.Props.C103_totals_partial",
    "Birch.Props.C103_recorder_partial",
    "Birch.Props.C103_test_partial",
    "Birch.Props.C103_times_change"
   ],
   "note": "Proved for events with times from 1677 to 2262: the documents that are read say everything the events said, in order, and unmarshalling restores everything but the ID and the number of operations, the time rounded down to milliseconds (C103_base_partial, C103_batch_partial, C103_streaming_partial; HoldsEvents in Spec/EventFile). A cumulative collector over a batch collector leaves the running totals in the file (C103_totals_partial); whatever is called on a raw, single or grouped recorder with int64 arguments and such times, what it records is in the file (C103_recorder_partial), and the file of one test tells the sums of the calls (C103_test_partial). Fails: ID and operations are lost (C50_lost); a time outside of these years comes back as another time without any error (C103_times_change); an event whose time was never set comes back in 1754. Assumed: the compressor is lossless and a compressed chunk is below 2 GB."
  },
  {
   "property": "C104",
   "status": "partial",
   "theorems": [
    "Birch.Props.C104_undisturbed_partial",
    "Birch.Props.C104_changed",
    "Birch.Props.C104_only_then",
    "Birch.Props.C104_counters",
    "Birch.Props.C104_reuse",
    "Birch.Props.C104_in_place",
    "Birch.Props.C104_type_panics",
    "Birch.Props.C104_copy"
   ],
   "note": "Model/FtdcShared is the base collector on the object graph of C87: it keeps the first document, the metadata and the double and int64 values of the last document by pointer. Proved: a program that does not write to what the collector refers to gets the chunk of the documents as they were added, byte for byte (C104_undisturbed_partial); if only the values of the last document are left alone, the first document and the metadata are written as they are at Resolve and the differences as they were (C104_changed), which is the chunk of the documents that were added only if the first one is as it was (C104_only_then) and, for int64 metrics, the chunk of documents all moved by as much as the first has changed (C104_counters). Violated: a document reused with SetValue gives y, 2y - x instead of x, y (C104_reuse), one whose value is set in place gives y, y (C104_in_place), and if it is set to another type the next Add panics (C104_type_panics). Document.Copy before Add protects from changes to the list of elements only (C104_copy). Assumed: a compressed chunk is below 2 GB. Simplified: marshalling is on trees (the same as on objects by C87_marshal if no scope was opened)."
  },
  {
   "property": "C105",
   "status": "partial",
   "theorems": [
    "Birch.Props.C105_kept_partial",
    "Birch.Props.C105_schedules",
    "Birch.Props.C105_type_change",
    "Birch.Props.C105_bad_line",
    "Birch.Props.C105_counter",
    "Birch.Props.C105_fraction",
    "Birch.Props.C105_cut",
    "Birch.Props.C105_renamed"
   ],
   "note": "Model/JsonFiles composes the JSON reader of C56/C62, the dynamic collector of C37 and the file that it resolves to; the goroutines, the context and failing files are in C85. Proved: if the samples between two flushes are alike, or alike up to a point after which the checksum of the keys never is that of the first ones again, there is a file for each flush with samples and all numbers come back in order and under their keys (C105_kept_partial). For any interleaving of the goroutines and the timer in the transition system of C85 that returns nil, the files are divided like those of such turns (C105_schedules). A line that is no object ends the collection, and what was collected since the last flush is lost (C105_bad_line). Violated: if a number changes its type under the same keys the collection ends with an error and the samples since the last flush are lost (C105_type_change), and the reader changes types by itself: a counter that reaches 2147483647 (C105_counter), a first fraction (C105_fraction). Numbers below -2^31 are collected as others, without an error (C105_cut). If two kinds of records alternate, values come back under the keys of the other kind (C105_renamed). Assumed: a compressed chunk is below 2 GB. Numbers that FTDC itself does not keep (C33) are excluded."
  },
  {
   "property": "C106",
   "status": "partial",
   "theorems": [
    "Birch.Props.C106_bytes_partial",
    "Birch.Props.C106_exact",
    "Birch.Props.C106_injected",
    "Birch.Props.C106_options",
    "Birch.Props.C106_not_always",
    "Birch.Props.C106_exact_nested"
   ],
   "note": "C106_bytes_partial: objects of any nesting without NULs in keys and regular expressions, in the formats of C62_reads_partial. C106_exact: for objects without nested ones there is never an error, and the bytes are right exactly if no key and no regular expression has a NUL. Violated: for any fields at all there is a JSON text of one string under one key that is read without an error and marshalled as a BSON document with these fields (C106_injected), so the claim is false (C106_not_always); a regular expression loses its options (C106_options). C106_exact_nested says the same of objects of any nesting; those that panic are in C107."
  },
  {
   "property": "C107",
   "status": "partial",
   "theorems": [
    "Birch.Props.C107_outcome",
    "Birch.Props.C107_no_panic_partial",
    "Birch.Props.C107_exact",
    "Birch.Props.C107_array_panics",
    "Birch.Props.C107_panics_somewhere",
    "Birch.Props.C107_json_panics"
   ],
   "note": "C107_outcome: for every document, if a document, array or code with scope at any depth has a key with a NUL, nothing is returned (an error or a panic), otherwise bytes are returned, and they are those of the document given exactly if no key and no regular expression has a NUL (C107_exact, C106_exact_nested). Without arrays there is no panic (C107_no_panic_partial). Violated: for every array that is not empty there are keys under which MarshalBSON panics, index out of range in Array.writeByteSlice (C107_array_panics, C107_panics_somewhere), and UnmarshalJSON accepts the texts that lead to it (C107_json_panics), for example {\"a\\u0000bbbb\":[null]}. Other values under keys with a NUL: C95."
  },
  {
   "property": "C108",
   "status": "partial",
   "theorems": [
    "Birch.Props.C108_stream",
    "Birch.Props.C108_undisturbed_partial",
    "Birch.Props.C108_counters",
    "Birch.Props.C108_reuse"
   ],
   "note": "C108_stream: what is in the file after every program that does not write to the values kept of the last document (these: C104), chunk by chunk: the first document and the metadata as they are when the chunk is written, the differences as they were when the documents were added, and the collector is as new after every chunk, so a change has no effect on other chunks. C108_undisturbed_partial: if the first documents are what they were, the file is that of the documents as they were added. C108_counters: otherwise, if the metrics are int64s, it is that of other samples, all those of a chunk moved by the change of its first document. Violated: C108_reuse, one document that is changed with SetValue and added again, any number of times, with a chunk for every sample: the first sample is missing in the file and the last one is in it twice, and no Add returns an error. The writer is one that takes all bytes."
  },
  {
   "property": "C109",
   "status": "partial",
   "theorems": [
    "Birch.Props.C109_table_partial",
    "Birch.Props.C109_exact",
    "Birch.Props.C109_files",
    "Birch.Props.C109_collected_partial",
    "Birch.Props.C109_doubles",
    "Birch.Props.C109_timestamps",
    "Birch.Props.C109_dates",
    "Birch.Props.C109_streamed_partial",
    "Birch.Props.C109_batch_partial"
   ],
   "note": "C109_table_partial: every file of chunks whose documents have no doubles, no timestamps and no dates outside of 1677 to 2262, and equally many numbers, is read without an error and gives exactly that table. C109_exact: what the table is for any documents, also with doubles, timestamps and dates of any year. C109_files: with DumpCSV, one such table for every group of chunks with as many numbers. C109_collected_partial: the same from the documents given to a base collector to the table. C109_streamed_partial and C109_batch_partial: the same for a streaming collector and a batch collector, with any size of chunks. Violated: C109_doubles (the row of the second sample has the bits of the difference), C109_timestamps (the row of the first sample has a thousand times the seconds), C109_dates (a date of 2262 is written as one of 1677). What happens if the number of numbers changes is in C66 and C67. The writer is one that takes all bytes; the text of a second is a parameter."
  }
 ]
}