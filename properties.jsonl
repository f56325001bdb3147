{"id": "C01", "title": "MarshalBSON writes the canonical BSON encoding", "statement": "For every document assembled from EC/VC/DC constructors (any element types, any nesting of documents, arrays and code-with-scope), MarshalBSON succeeds and returns exactly the bytes the BSON grammar assigns to that ordered list of keys and values.", "quantifier": "all documents: every finite nesting of all 21 BSON types, NUL-free keys and regex parts, legal binary subtypes, total size below 2^31", "why_tests_cant": "The document space is infinite (arbitrary nesting depth, key sets, payloads); a test checks only a few shapes and lengths.", "anchors": ["document.go:MarshalBSON", "document.go:writeByteSlice", "element.go:writeByteSlice", "array.go:writeByteSlice", "constructor.go:ElementConstructor"]}
{"id": "C02", "title": "Reading back a marshalled document recovers it", "statement": "ReadDocument applied to the marshalled bytes of a document succeeds, and reading the result with Key, Type, the typed accessors, MutableDocument, MutableArray and MutableJavaScriptWithScope gives back the same ordered keys and values at every depth.", "quantifier": "all documents as in C01, at every nesting depth", "why_tests_cant": "Round-trip must hold for every nesting and every payload; lazily parsed nested buffers share offsets into one slice, which finite examples cannot exhaust.", "anchors": ["document.go:ReadDocument", "document.go:UnmarshalBSON", "iterator.go:readerIterator", "value.go:MutableDocument", "value.go:MutableArray"]}
{"id": "C03", "title": "Read then marshal is the identity on canonical bytes", "statement": "For canonical BSON bytes b, MarshalBSON(ReadDocument(b)) = b, also after any subset of nested documents, arrays and scopes has been opened through the Mutable* accessors.", "quantifier": "all canonical byte strings shorter than 2^31 and every set of opened sub-values", "why_tests_cant": "Values can be in two internal representations (raw slice or parsed document) independently at each node: exponentially many mixed states.", "anchors": ["document.go:MarshalBSON", "document.go:UnmarshalBSON", "element.go:writeByteSlice", "value.go:MutableDocument"]}
{"id": "C04", "title": "Reported size, header and output length agree", "statement": "When MarshalBSON of a document (or array) succeeds, Validate succeeds with the number of bytes produced and the first four output bytes are that number in little-endian.", "quantifier": "all documents and arrays, including hand-assembled or parsed ones", "why_tests_cant": "Size computation and writing are two separate recursive traversals that must agree for every input.", "anchors": ["document.go:Validate", "array.go:Validate", "element.go:Validate", "value.go:validate", "document.go:writeByteSlice"]}
{"id": "C05", "title": "Canonical encodings are uniquely decodable", "statement": "Two documents with the same bytes are the same document, and if one document's bytes are a prefix of another's they are equal, so concatenated documents split in exactly one way.", "quantifier": "all pairs of documents", "why_tests_cant": "Injectivity quantifies over pairs of infinite sets.", "anchors": ["document.go:MarshalBSON", "document.go:ReadFrom"]}
{"id": "C06", "title": "Reader.Validate accepts every canonical document and reports its size", "statement": "Reader.Validate on canonical document bytes followed by any trailing bytes succeeds, terminates, and returns the document's own size.", "quantifier": "all canonical documents and all trailing bytes (total below 2^31)", "why_tests_cant": "Unbounded nesting and trailing data.", "anchors": ["reader.go:Validate", "reader.go:readElements", "value.go:validate"]}
{"id": "C07", "title": "Array keys are positional", "statement": "Marshalling an array writes its i-th value under key decimal(i), whatever key the value carried before, and a document read back from an array lists its values in order.", "quantifier": "all arrays of any length, with values taken from anywhere (constructors, other documents, other arrays)", "why_tests_cant": "Quantifies over all lengths (key width changes at powers of ten) and all previous keys.", "anchors": ["array.go:writeByteSlice", "array.go:Validate", "array.go:NewArray", "array.go:Append"]}
{"id": "C08", "title": "Scalar constructors and accessors are inverse", "statement": "For every BSON scalar type, the accessor applied to EC.X(key, v) or VC.X(v) returns v, Key returns key and Type returns the type.", "quantifier": "every value of every scalar Go type (all int32/int64/uint32 pairs/float64 bit patterns/byte strings/object ids/decimals) and every key", "why_tests_cant": "64- and 128-bit value spaces cannot be enumerated.", "anchors": ["constructor.go:ElementConstructor", "constructor.go:ValueConstructor", "value.go", "elements/elements.go"]}
{"id": "C09", "title": "Typed accessors are exact about types", "statement": "On well-formed values XOK returns ok=true exactly when the value has type X and then agrees with X(); X() panics exactly when the type differs; XOK never panics.", "quantifier": "all well-formed values, all accessor pairs", "why_tests_cant": "Quantifies over all values; the cross product of types with payloads is unbounded.", "anchors": ["value.go"]}
{"id": "C10", "title": "Reading arbitrary bytes terminates without panicking", "statement": "ReadDocument and Reader.Validate on arbitrary bytes return a result or an error: they never panic and never run forever; and documents they accept can be read with the accessors without panicking.", "quantifier": "all byte strings", "why_tests_cant": "The input space is all byte strings; length fields interact with wrap-around arithmetic.", "anchors": ["reader.go:Validate", "reader.go:readElements", "iterator.go:readerIterator", "value.go:validate", "value.go:StringValue"]}
{"id": "C11", "title": "Streamed documents are consumed one at a time", "statement": "ReadFrom (and NewFromIOReader) on a stream that starts with a canonical document returns that document, reports its size as bytes consumed, and leaves exactly the remaining bytes unread, however the stream is split into reads; reading repeatedly from concatenated documents yields them in order and then io.EOF.", "quantifier": "all sequences of canonical documents, all trailing bytes, all ways of splitting reads", "why_tests_cant": "All segmentations of all streams.", "anchors": ["document.go:ReadFrom", "reader.go:NewFromIOReader", "x_constructor.go:ReadFrom"]}
{"id": "C12", "title": "Append, Extend, ElementAt and Iterator expose insertion order", "statement": "After any sequence of Append and Extend, Len, ElementAt(i), ElementAtOK(i) and Iterator show exactly the inserted elements in insertion order; ElementAt panics and ElementAtOK reports false exactly when out of range.", "quantifier": "all operation sequences and all indices", "why_tests_cant": "All histories.", "anchors": ["document.go:Append", "document.go:Extend", "document.go:ElementAt", "document.go:ElementAtOK", "document.go:Iterator"]}
{"id": "C13", "title": "Set replaces the first match in place or appends", "statement": "Set(e) replaces the first element whose key equals e's key, leaves every other element and the order unchanged, and appends e when the key is absent; afterwards Lookup of that key returns e's value and lookups of other keys are unchanged.", "quantifier": "all documents (including duplicate keys) and all elements", "why_tests_cant": "All documents and keys, including duplicates.", "anchors": ["document.go:Set"]}
{"id": "C14", "title": "Delete removes exactly the first match", "statement": "Delete(k) removes only the first element with key k and returns it, keeping the order of the rest; if k is absent the document is unchanged and nil is returned.", "quantifier": "all documents and keys", "why_tests_cant": "All documents, duplicates included.", "anchors": ["document.go:Delete"]}
{"id": "C15", "title": "Lookup returns the first match", "statement": "Lookup, LookupErr, LookupElement and Search with one key return the first element with that key and report absence exactly when no element has it.", "quantifier": "all documents and keys", "why_tests_cant": "All documents and keys.", "anchors": ["document.go:Search", "x_document.go:Lookup", "x_document.go:LookupElement"]}
{"id": "C16", "title": "Path search follows documents and arrays", "statement": "Search(k1,...,kn) and Reader.RecursiveLookup return the element reached by descending through nested documents by key and arrays by decimal index, and fail exactly when some step does not exist.", "quantifier": "all documents, all paths of any length", "why_tests_cant": "Unbounded depth and arbitrary paths.", "anchors": ["document.go:Search", "array.go:findElementForStrKey", "reader.go:RecursiveLookup"]}
{"id": "C17", "title": "Sorted is a stable sorted permutation", "statement": "Sorting a document's elements yields a permutation in non-decreasing key order in which elements with equal keys keep their relative order; the original document is unchanged.", "quantifier": "all documents", "why_tests_cant": "All lengths and key multisets.", "anchors": ["x_document.go:Sorted", "x_document.go:37-76"]}
{"id": "C18", "title": "AppendOmitEmpty drops exactly the empty values", "statement": "AppendOmitEmpty appends, in order, exactly those non-nil arguments whose value is not the zero value of its type.", "quantifier": "all documents, all argument lists, all value types", "why_tests_cant": "All argument lists and payloads.", "anchors": ["document.go:AppendOmitEmpty", "value.go:IsEmpty"]}
{"id": "C19", "title": "Map reflects the current contents", "statement": "After any sequence of mutations, Document.Map() maps each key to the element currently in the document.", "quantifier": "all histories of Append/Set/Delete/Reset/Extend/UnmarshalBSON interleaved with Map calls", "why_tests_cant": "The result is cached, so correctness depends on the whole history.", "anchors": ["unmarshal.go:Map", "document.go:Set", "document.go:Delete", "document.go:UnmarshalBSON"]}
{"id": "C20", "title": "Array operations act by position", "statement": "Array Append/Extend/Set/Delete/Lookup/Len behave as the corresponding operations on a list of values: Set changes only the indexed position and panics out of range, Delete removes only that position and returns its value or nil.", "quantifier": "all histories of array operations", "why_tests_cant": "All histories.", "anchors": ["array.go"]}
{"id": "C21", "title": "Equal is an equivalence that matches BSON content", "statement": "For well-formed values, Equal is reflexive, symmetric and transitive, does not depend on whether a sub-document has been parsed, and is true exactly when both encode to the same bytes.", "quantifier": "all pairs/triples of well-formed values in any internal representation", "why_tests_cant": "Pairs and triples over an infinite space with several internal representations.", "anchors": ["value.go:Equal", "element.go:Equal", "x_value.go:checkEqualVal"]}
{"id": "C22", "title": "Element encoders stay inside their window", "statement": "Each elements.* Encode/Element writes exactly the bytes it reports, all inside [start,start+n), leaves every other byte of the buffer untouched, and returns ErrTooSmall without writing exactly when the buffer is too short.", "quantifier": "all buffers, all start positions, all values", "why_tests_cant": "All buffer lengths and offsets.", "anchors": ["elements/elements.go"]}
{"id": "C23", "title": "Integer constructors preserve the integer", "statement": "EC.Int / VC.Int / EC.Interface on any Go integer yields an element whose integer accessor returns the same number, or (for Interface on uint64 above the int64 range) an explicit Null / error.", "quantifier": "all int, int8..int64, uint8..uint64 values", "why_tests_cant": "64-bit domain.", "anchors": ["x_constructor.go:Int", "constructor.go:Interface"]}
{"id": "C24", "title": "Times round-trip at millisecond precision", "statement": "EC.Time(t) followed by Time() returns t truncated to whole milliseconds, for instants before and after 1970.", "quantifier": "all instants representable in int64 milliseconds", "why_tests_cant": "64-bit domain with sign-dependent division.", "anchors": ["constructor.go:Time", "value.go:Time", "value.go:DateTime"]}
{"id": "C25", "title": "ObjectID hex text round-trips", "statement": "ObjectIDFromHex(id.Hex()) = id; ObjectIDFromHex accepts exactly the 24-digit hexadecimal strings and for lower-case input Hex gives the input back.", "quantifier": "all 96-bit ids and all strings", "why_tests_cant": "96-bit domain and all strings.", "anchors": ["types/objectid.go"]}
{"id": "C26", "title": "Concurrently generated ObjectIDs are distinct", "statement": "Any number (up to 2^24) of NewObjectID calls made by one process, in any interleaving of goroutines, return pairwise distinct ids.", "quantifier": "all schedules of concurrent callers, all counter seeds", "why_tests_cant": "All schedules; includes counter wrap-around.", "anchors": ["types/objectid.go:NewObjectID"]}
{"id": "C27", "title": "Decimal128 wide arithmetic is exact", "statement": "The 128-bit multiply-add and divide steps used to print and parse decimals compute the exact quotient/remainder and product-sum, and report overflow exactly when the result does not fit in 128 bits.", "quantifier": "all 128-bit operands and 32-bit multipliers/divisors", "why_tests_cant": "128-bit domain.", "anchors": ["types/decimal.go:divmod", "types/decimal.go:muladd"]}
{"id": "C28", "title": "Decimal128 text is faithful", "statement": "For every finite Decimal128 with an in-range coefficient, ParseDecimal128(d.String()) represents the same number, and ParseDecimal128 returns an error for numbers outside the representable range.", "quantifier": "all decimals / all decimal strings", "why_tests_cant": "2^128 values and unbounded strings.", "anchors": ["types/decimal.go:String", "types/decimal.go:ParseDecimal128"]}
{"id": "C29", "title": "JSON strings are escaped correctly", "statement": "The JSON text written for any string is a valid JSON string literal whose value is the original string.", "quantifier": "all strings", "why_tests_cant": "All strings.", "anchors": ["jsonx"]}
{"id": "C30", "title": "JSON documents marshal to valid JSON with the same content", "statement": "jsonx MarshalJSON of any document yields valid JSON text which parses back to the same keys, order and values.", "quantifier": "all jsonx documents of any nesting", "why_tests_cant": "Unbounded nesting; arbitrary keys.", "anchors": ["jsonx/marhsal.go:10-100", "jsonx/write.go:110-178"]}
{"id": "C31", "title": "FTDC variable-length integers round-trip", "statement": "Reading an encoded integer returns the integer and leaves the following bytes unread.", "quantifier": "all 64-bit integers and all following bytes", "why_tests_cant": "64-bit domain.", "anchors": ["x/ftdc/util.go:encodeValue", "x/ftdc/read.go:readChunks"]}
{"id": "C32", "title": "FTDC zero-run compression is lossless", "statement": "Decoding the run-length/varint encoded delta stream of a chunk gives back every delta of every metric in order, consuming exactly the encoded bytes, including zero runs that cross metric boundaries.", "quantifier": "all matrices of 64-bit deltas (any number of metrics and samples)", "why_tests_cant": "All matrices; runs may cross rows.", "anchors": ["x/ftdc/collector_better.go:getPayload", "x/ftdc/read.go:readChunks"]}
{"id": "C33", "title": "FTDC collectors reproduce the recorded samples", "statement": "Documents added to a base collector and resolved are returned by ReadStructuredMetrics as the same sequence of numeric fields in the same order and with the same types.", "quantifier": "all sequences of documents with a common schema, up to the capacity", "why_tests_cant": "All sequences and schemas.", "anchors": ["x/ftdc/collector_better.go", "x/ftdc/read.go", "x/ftdc/bson_restore.go", "x/ftdc/bson_extract.go"]}
{"id": "C34", "title": "FTDC base collector honours its capacity and rejects schema changes without damage", "statement": "A base collector of size n accepts the reference plus n samples, then returns an error; a rejected Add leaves the collected samples unchanged.", "quantifier": "all histories of Add with arbitrary documents", "why_tests_cant": "All histories.", "anchors": ["x/ftdc/collector_better.go:Add", "x/ftdc/collector_better.go:Info"]}
{"id": "C35", "title": "FTDC batch collector never loses or reorders samples", "statement": "A batch collector splits any sequence of same-schema samples into chunks no longer than its limit whose concatenation is the sequence.", "quantifier": "all limits >= 1 and all sequences", "why_tests_cant": "All histories.", "anchors": ["x/ftdc/collector_batch.go"]}
{"id": "C36", "title": "FTDC streaming collector writes every sample exactly once", "statement": "After any sequence of Adds and a final flush, the chunks written to the output contain every added sample exactly once, in order.", "quantifier": "all chunk sizes and all sequences", "why_tests_cant": "All histories, including flush points.", "anchors": ["x/ftdc/collector_streaming.go", "x/ftdc/collector_streaming.go:FlushCollector"]}
{"id": "C37", "title": "FTDC dynamic collectors split exactly at schema changes", "statement": "Dynamic collectors start a new chunk when and only when the set of metric keys changes (or a chunk is full), and no sample is lost.", "quantifier": "all sequences of documents with arbitrary schemas", "why_tests_cant": "All histories of schema changes.", "anchors": ["x/ftdc/collector_dynamic.go", "x/ftdc/collector_streaming.go", "x/ftdc/bson_hash.go"]}
{"id": "C38", "title": "FTDC flattened keys are the full dotted paths", "statement": "The key reported for every metric is the dot-joined path of the field in the source document, so distinct fields have distinct keys.", "quantifier": "all nested documents", "why_tests_cant": "Unbounded nesting.", "anchors": ["x/ftdc/bson_metric.go:metricForType", "x/ftdc/ftdc.go:Key"]}
{"id": "C39", "title": "FTDC matrix, structured and flat views agree", "statement": "The matrix export, the flattened iterator and the structured iterator of a chunk show the same numbers for each metric and sample.", "quantifier": "all chunks", "why_tests_cant": "All chunks.", "anchors": ["x/ftdc/bson_matrix.go", "x/ftdc/iterator_chunk.go", "x/ftdc/bson_restore.go"]}
{"id": "C40", "title": "Wire messages round-trip", "statement": "For every OP_REPLY, OP_UPDATE, OP_INSERT, OP_GET_MORE, OP_QUERY, OP_DELETE, OP_KILL_CURSORS, OP_COMMAND, OP_COMMAND_REPLY and OP_MSG message, parsing its serialized bytes yields a message with the same observable fields.", "quantifier": "all messages with NUL-free names and canonical documents", "why_tests_cant": "All field values and document lists.", "anchors": ["x/mrpc/mongowire"]}
{"id": "C41", "title": "Wire message length headers are exact", "statement": "The length in the serialized header equals the number of bytes serialized, for every message type.", "quantifier": "all messages", "why_tests_cant": "All messages.", "anchors": ["x/mrpc/mongowire"]}
{"id": "C42", "title": "ReadMessage frames a stream correctly under every segmentation", "statement": "Reading from a connection that delivers concatenated serialized messages returns them one by one, regardless of how the bytes are split across reads.", "quantifier": "all message sequences and all read segmentations", "why_tests_cant": "All segmentations.", "anchors": ["x/mrpc/mongowire/sock.go:ReadMessage"]}
{"id": "C43", "title": "SendMessage writes the whole message", "statement": "SendMessage delivers exactly the serialized bytes, in order, for every pattern of partial writes, or returns an error.", "quantifier": "all messages and all partial-write behaviours", "why_tests_cant": "All write behaviours.", "anchors": ["x/mrpc/mongowire/sock.go:SendMessage"]}
{"id": "C44", "title": "Operation registry dispatches deterministically", "statement": "After any sequence of Add calls, Get returns the handler registered for exactly that operation scope, else the one registered with empty context, else nothing; a registered handler is never replaced.", "quantifier": "all histories of registrations and lookups", "why_tests_cant": "All histories.", "anchors": ["x/mrpc/registry.go"]}
{"id": "C45", "title": "Namespace helpers split db and collection at the first dot", "statement": "NamespaceToDB and NamespaceToCollection recompose to the original namespace and split at the first dot.", "quantifier": "all strings", "why_tests_cant": "All strings.", "anchors": ["x/mrpc/mongowire/namespace.go"]}
{"id": "C46", "title": "Shell and log protocol documents round-trip", "statement": "Responses encoded by the shell package are decoded to equal values.", "quantifier": "all field values", "why_tests_cant": "All values.", "anchors": ["x/mrpc/shell"]}
{"id": "C47", "title": "Cumulative event collectors record running totals", "statement": "With the basic collector the i-th recorded performance event carries the sums of all counters and timers of the first i events and the gauges of the i-th; the sampling collector records every n-th of these totals.", "quantifier": "all event sequences and all n >= 1", "why_tests_cant": "All sequences.", "anchors": ["x/ftdc/events/collector.go", "x/ftdc/events/performance.go:Add"]}
{"id": "C48", "title": "Interval recorder never blocks its callers forever", "statement": "Under every interleaving of recorder calls, EndTest/Reset and the background ticker, every call eventually gets the lock.", "quantifier": "all schedules of callers, ticker and cancellation", "why_tests_cant": "Schedules cannot be enumerated by tests.", "anchors": ["x/ftdc/events/recorder_performance_interval.go:worker"]}
{"id": "C49", "title": "Recorder totals account for every iteration", "statement": "The raw/single/grouped recorders' counters equal the sums of the increments reported since the last reset, and each EndIteration adds one.", "quantifier": "all call sequences", "why_tests_cant": "All histories.", "anchors": ["x/ftdc/events/recorder_performance_raw.go", "x/ftdc/events/recorder_performance_single.go", "x/ftdc/events/recorder_performance_grouped.go"]}
{"id": "C50", "title": "Performance events round-trip through documents", "statement": "UnmarshalDocument(MarshalDocument(p)) restores every field of p.", "quantifier": "all performance events", "why_tests_cant": "64-bit fields.", "anchors": ["x/ftdc/events/performance.go"]}
{"id": "C51", "title": "Linked-list documents behave like documents", "statement": "The blist Document exposes the same results as Document for Len, Append, Set, Delete and Lookup.", "quantifier": "all operation histories", "why_tests_cant": "All histories.", "anchors": ["x/blist"]}
{"id": "C52", "title": "Documents accepted by Reader.Validate can be read at every depth", "statement": "If Reader.Validate accepts some bytes then ReadDocument reads them, every element it yields has a key and a type, and every embedded document and array it yields is again accepted by Reader.Validate.", "quantifier": "all byte strings shorter than 2^31", "why_tests_cant": "Depends on two separately written loops (validation and iteration) agreeing on arbitrary, also malformed, input.", "anchors": ["reader.go:Validate", "reader.go:readElements", "iterator.go:readerIterator", "document.go:ReadDocument"]}
{"id": "C53", "title": "Interval recorder loses no report", "statement": "Under every interleaving of callers and background workers, the sums over the recorded events plus the pending event equal what the callers reported, and EndTest records what is pending.", "quantifier": "all schedules and call sequences", "why_tests_cant": "Schedules cannot be enumerated by tests.", "anchors": ["x/ftdc/events/recorder_performance_interval.go"]}
{"id": "C54", "title": "Shell service answers its commands", "statement": "A request for one of the registered commands, sent as OP_MSG or as OP_QUERY on mrpc.$cmd, is dispatched to the handler of that command, and its answer, sent back and read, is the document of that command and names the request.", "quantifier": "all request documents, all registration orders, all addresses", "why_tests_cant": "Spans document encoding, framing, upconversion, dispatch and decoding for arbitrary documents.", "anchors": ["x/mrpc/shell/service.go", "x/mrpc/shell/util.go", "x/mrpc/service.go:dispatchRequest"]}
{"id": "C55", "title": "The JSON reader reads what the text says", "statement": "jsonx UnmarshalJSON of a value, a document or an array returns a value exactly if the text is a JSON text of that kind, and then the value the text denotes: the same structure, the same keys in the same order (repeated ones included), strings unescaped, numbers as integers where they are integers.", "quantifier": "all byte strings", "why_tests_cant": "The validator, the tokenizer, the unescaper and the number reader each scan the text on their own and have to agree on every text.", "anchors": ["jsonx/unmarshal.go", "jsonx/internal/gjson.go"]}
{"id": "C56", "title": "The JSON validator accepts exactly JSON", "statement": "The validation in front of ParseBytes accepts a byte string if and only if it is a JSON text as in RFC 8259.", "quantifier": "all byte strings", "why_tests_cant": "Equivalence of a hand-written scanner with a grammar.", "anchors": ["jsonx/internal/gjson.go:valid", "jsonx/internal/gjson.go:validpayload"]}
{"id": "C57", "title": "JSON values round-trip", "statement": "UnmarshalJSON(MarshalJSON(v)) is v for every jsonx value.", "quantifier": "all values of every nesting depth", "why_tests_cant": "Unbounded nesting, all strings and numbers.", "anchors": ["jsonx/marhsal.go", "jsonx/unmarshal.go"]}
{"id": "C58", "title": "Truncated wire messages are rejected", "statement": "Header.Parse returns an error for every proper prefix of the body of every message, whatever its kind, and never panics on one.", "quantifier": "all messages of all kinds, every cut point", "why_tests_cant": "Every cut point of unboundedly many messages; some prefixes happen to be well formed messages.", "anchors": ["x/mrpc/mongowire/header.go:Parse", "x/mrpc/mongowire/wireutil.go", "x/mrpc/mongowire/wire_message.go"]}
{"id": "C59", "title": "MarshalJSON writes extended JSON", "statement": "MarshalJSON of a document, an array or a value writes JSON text that denotes its MongoDB extended JSON (relaxed form): the same fields in the same order, and for each BSON type the object the format prescribes.", "quantifier": "all documents of every nesting depth, all values of all types", "why_tests_cant": "Twenty-one value types, unbounded nesting, all strings.", "anchors": ["x_json_marshal.go", "jsonx/marhsal.go"]}
{"id": "C60", "title": "Extended JSON round-trips", "statement": "UnmarshalJSON of what MarshalJSON wrote for a document, an array or a value gives the same fields with the same types and values.", "quantifier": "all documents of every nesting depth, all values of all types", "why_tests_cant": "Writer, JSON writer, JSON reader and importer have to agree on every document.", "anchors": ["x_json_marshal.go", "x_json_unmarshal.go:convertJSONElements"]}
{"id": "C61", "title": "UnmarshalJSON imports plain JSON", "statement": "UnmarshalJSON of a JSON object appends one field for each of its members, in order, with the value of the member; for other texts it returns an error and leaves the document as it was; it never panics.", "quantifier": "all byte strings, all documents to append to", "why_tests_cant": "The importer interprets objects by their first key, so that ordinary data can be taken for something else.", "anchors": ["x_json_unmarshal.go:UnmarshalJSON", "x_json_unmarshal.go:convertJSONElements"]}
{"id": "C62", "title": "UnmarshalJSON reads extended JSON", "statement": "UnmarshalJSON of MongoDB extended JSON, in the relaxed or the canonical format and however the text is laid out and escaped, appends the fields it stands for with their BSON types and values.", "quantifier": "all texts of all documents, arrays and values of every nesting depth", "why_tests_cant": "Twenty-one value types, unbounded nesting and many texts for one value.", "anchors": ["x_json_unmarshal.go:convertJSONElements", "x_json_unmarshal.go:UnmarshalJSON"]}
{"id": "C63", "title": "Exported values can be imported again", "statement": "Value.Interface gives the Go data a value stands for, and EC.Interface of that data gives the value back.", "quantifier": "all values of every type and nesting depth, every order in which Go visits its maps", "why_tests_cant": "Twenty-one value types, unbounded nesting, random map order.", "anchors": ["value.go:Interface", "x_document.go:ExportMap", "x_array.go:Interface", "constructor.go:Interface"]}
{"id": "C64", "title": "Constructors from Go data build what they are given", "statement": "EC.Interface, ECE.Interface, DC.Interface, DCE.Interface and the map and slice constructors build the BSON value a Go value stands for, under the given key; for Go values without a BSON counterpart the EC variants give null and the ECE and DCE variants an error.", "quantifier": "all Go values of all types of every nesting depth, every order in which Go visits its maps", "why_tests_cant": "More than thirty Go types that nest without bound, overlapping interfaces, random map order.", "anchors": ["constructor.go:Interface", "x_constructor.go:MapInterface", "x_constructor.go:SliceInterface", "x_constructor.go:Interface"]}
{"id": "C65", "title": "A DocumentMap is a view of the document", "statement": "UnmarshalDocument and UnmarshalBSON write each element of the document into the map under its key, agree with Map when a key is repeated, and leave the map alone when they fail; Validate accepts exactly the maps whose elements are valid and stored under their own keys; MarshalBSON after UnmarshalBSON gives back the same fields. Document.Unmarshal into a map writes the values of the document and keeps the other entries.", "quantifier": "all documents, all maps, every order in which Go visits its maps, all bytes", "why_tests_cant": "Random map order, repeated keys, maps that already hold entries, unbounded documents.", "anchors": ["unmarshal.go:Validate", "unmarshal.go:MarshalDocument", "unmarshal.go:UnmarshalDocument", "unmarshal.go:UnmarshalBSON", "document.go:Unmarshal"]}
{"id": "C66", "title": "CSV files written from chunks hold their samples", "statement": "WriteCSV writes the metric names and then one row per sample with one field per metric, in order; if it returns no error everything was written; chunks with other metrics are an error. DumpCSV starts a new file with new names whenever the metrics change.", "quantifier": "all sequences of chunks that were read from FTDC data, all writers that fail at any call, all formats of dates", "why_tests_cant": "Unbounded numbers of chunks, metrics and samples; failures of the writer at any call.", "anchors": ["x/ftdc/csv.go:getFieldNames", "x/ftdc/csv.go:getRecord", "x/ftdc/csv.go:WriteCSV", "x/ftdc/csv.go:DumpCSV"]}
{"id": "C67", "title": "ConvertFromCSV keeps the rows of the file", "statement": "ConvertFromCSV of a file with a header turns each row into a sample with the number fields under the names of the header, in order, and reading the result gives these samples back; a record with another number of fields becomes the header of the following rows, as the comment says; errors of the writer are returned. WriteCSV and then ConvertFromCSV gives back the samples.", "quantifier": "all headers, all rows, all sizes of chunks, all compressors that can be undone, all files that end in an error", "why_tests_cant": "Unbounded files; which rows share a chunk depends on checksums and sizes.", "anchors": ["x/ftdc/csv.go:ConvertFromCSV", "x/ftdc/collector_streaming.go:104"]}
{"id": "C68", "title": "Uncompressed collectors write all their documents", "statement": "An uncompressed collector takes documents with the same number of fields up to its limit and refuses the others; Resolve gives the metadata and the samples in order, as a stream of BSON documents or as lines of JSON without other newlines, and reading gives them back. The streaming collectors write a batch by themselves when it is full, with the metadata once at the beginning, and the dynamic ones when the schema changes, in the same format; errors of the writer are returned and lose no sample.", "quantifier": "all sequences of documents, all limits, all metadata, all writers that fail at any point", "why_tests_cant": "Unbounded histories of adds and flushes, and failing writers.", "anchors": ["x/ftdc/collector_uncompressed.go:Add", "x/ftdc/collector_uncompressed.go:Resolve", "x/ftdc/collector_streaming.go:FlushCollector", "x/ftdc/collector_streaming.go:Reset"]}
{"id": "C69", "title": "The writer collector stores what is written to it", "statement": "Each Write of a document to NewWriterCollector returns its size and no error, Close closes the writer, and then everything that was written can be read from it in order; whatever is not taken is reported with an error and the count 0.", "quantifier": "all sequences of documents, all sizes of chunks, all ways of writing, all failing writers", "why_tests_cant": "Unbounded sequences and any chunks of bytes.", "anchors": ["x/ftdc/writer.go:Write", "x/ftdc/writer.go:Close"]}
{"id": "C70", "title": "The sampling collector keeps the interval", "statement": "NewSamplingCollector passes on exactly the calls of Add that come at least the interval after the last recorded one, in order and with their errors, and skips the others without an error; the first call is always passed on. A call that records nothing does not start an interval.", "quantifier": "all collectors inside, all intervals, all clocks, all sequences of calls", "why_tests_cant": "Any clock and any history; saturation of durations at the zero time.", "anchors": ["x/ftdc/collector_sample.go:Add"]}
{"id": "C71", "title": "The buffered collector loses nothing it accepted", "statement": "NewBufferedCollector with any collector inside, any buffer size and any number of goroutines that call Add: the collector inside gets exactly the accepted items, each once, in the order in which they were accepted, also those that are in the channel when the context ends; its goroutine returns after the end of the context; no call of Add blocks for ever; Add panics never, and Resolve gives everything accepted before.", "quantifier": "all collectors inside, all sizes, all interleavings of any number of callers, the goroutine and the end of the context", "why_tests_cant": "Orders of concurrent events; the failing ones need a race between the end of the context and a call.", "anchors": ["x/ftdc/collector_buffered.go:NewBufferedCollector", "x/ftdc/collector_buffered.go:Add", "x/ftdc/collector_buffered.go:Resolve"]}
{"id": "C72", "title": "The synchronized collector is linearizable", "statement": "NewSynchronizedCollector with any collector inside whose Info changes nothing: under every interleaving of any number of goroutines the calls have the results they have one after the other in some order that respects the order of calls and returns; a method that may change the collector is never inside together with another one; somebody can always go on. FlushCollector loses no sample that other goroutines add meanwhile.", "quantifier": "all collectors inside, all interleavings of any number of callers", "why_tests_cant": "Races show in few runs of a test.", "anchors": ["x/ftdc/collector_sync.go:Add", "x/ftdc/collector_sync.go:Info", "x/ftdc/collector_streaming.go:FlushCollector"]}
{"id": "C73", "title": "Elements read from untrusted bytes can be accessed", "statement": "On every element that ReadDocument yields for any bytes, and that Reader.Validate has accepted, the accessor of the element's type returns a value and does not panic.", "quantifier": "all byte strings, all elements of all types", "why_tests_cant": "The lengths inside the bytes are chosen by whoever sent them.", "anchors": ["value.go:501", "value.go:698", "value.go:867", "value.go:944", "reader.go:239", "iterator.go:86"]}
{"id": "C74", "title": "Reading FTDC data with goroutines gives the sequential result", "statement": "However the loop over ReadChunks and its two goroutines are scheduled, the loop gets the chunks that reading the same bytes sequentially gives, in this order; Close reports the error of reading; the goroutines end and nothing waits for ever, also if the loop is left early.", "quantifier": "all byte sources, all schedules, all points at which the loop is left", "why_tests_cant": "The result depends on the interleaving of three goroutines, and tests see a few of them.", "anchors": ["x/ftdc/iterator_chunk.go:13", "x/ftdc/read.go:17", "x/ftdc/read.go:37", "x/ftdc/iterator.go:23", "x/ftdc/iterator.go:33"]}
{"id": "C75", "title": "Handlers see messages as the protocol means them", "statement": "For every message of the wire protocol, GetModel of the parsed bytes gives a model with the message's op code, all its fields and documents, and its flags as the protocol defines them, and HasResponse says whether the protocol has a reply to it.", "quantifier": "all messages, all flags, all documents", "why_tests_cant": "There are 2^32 flag values per message type, and tests compare with what the code does.", "anchors": ["x/mrpc/mongowire/message.go:128", "x/mrpc/mongowire/wire_message.go:94", "x/mrpc/mongowire/wire_message.go:31", "x/mrpc/model/model.go:5"]}
{"id": "C76", "title": "FTDC chunks have the documented byte layout", "statement": "A collector writes, byte for byte, {_id, type: 1, data} documents (preceded by {_id, type: 0, doc} for metadata) whose data are the uncompressed length, then compressed: the first sample, the counts of metrics and of further samples, and the differences by metric, as variable-length integers with run-length coded zeros; and every file of this layout is read back, whoever wrote it.", "quantifier": "all sequences of samples of one shape, all metadata, all files of the layout", "why_tests_cant": "Round-trip tests pass for any pair of writer and reader that agree with each other; other programs read and write these files too.", "anchors": ["x/ftdc/collector_better.go:123", "x/ftdc/collector_better.go:155", "x/ftdc/util.go:84", "x/ftdc/read.go:21"]}
{"id": "C77", "title": "The service gives every request to its handler", "statement": "For every connection and every schedule, dispatchRequest starts the registered handler for each message once and in order of arrival, until the client closes, a message cannot be read or has no handler; the connection is closed once, then; errors are reported at most once; what a client sends does not end the process; the client gets what the handlers write; Run serves each accepted connection once and returns when its context ends.", "quantifier": "all registrations, byte streams, handlers and schedules of the goroutines", "why_tests_cant": "The outcome depends on how the dispatcher, the handlers and the context interleave; tests run one client against a quick handler.", "anchors": ["x/mrpc/service.go:57", "x/mrpc/service.go:81", "x/mrpc/service.go:48", "x/mrpc/mongowire/sock.go:14", "x/mrpc/registry.go:36"]}
{"id": "C78", "title": "Custom points are written as one sorted document and come back in a known form", "statement": "Custom.Add takes numbers, booleans, times and slices of them and appends the point; other types are refused and change nothing. The document of a Custom has exactly one field per point, with its name and its value, in the stable order of names. Written with MarshalBSON and read with UnmarshalBSON the points come back in this order, each as the Go value that stands for what was written; writing them again gives the same bytes. UnmarshalBSON appends to the points that are there.", "quantifier": "all sequences of points, all names without NUL, all values of all accepted types, all documents read", "why_tests_cant": "The tests add one value of each type and compare lengths or round trips of int64; they do not try every type against MarshalDocument, and do not check names that repeat or values at the limits.", "anchors": ["x/ftdc/events/custom.go:26-103", "x_marshaler.go:30-42", "constructor.go:163-197"]}
{"id": "C79", "title": "Histogram recorders keep exactly what was reported, and say when they hand it on", "statement": "At every moment the event of a histogram recorder holds what was reported since the last Reset or EndTest: each histogram is a new one in which exactly the reported values were recorded in order, and its time, ID and gauges are those of the other recorders. The stream recorder hands on one event per iteration and one at EndTest if there is a time, the single recorder one per EndTest, the grouped recorder an iteration's event if the interval given has elapsed. EndTest returns an error exactly if a value was refused or the underlying collector failed since the last Reset or EndTest. The document of an event has the time, ID, bounds and counts of every histogram, and the gauges.", "quantifier": "all sequences of calls, all clocks, all failures of the underlying collector, all histogram libraries", "why_tests_cant": "The tests run each recorder for a few fixed calls against a mock collector and count events; they do not follow arbitrary sequences with refused values, EndTest in the middle, or intervals that have not elapsed.", "anchors": ["x/ftdc/events/recorder_histogram.go:10-91", "x/ftdc/events/recorder_histogram_single.go:10-88", "x/ftdc/events/recorder_histogram_grouped.go:10-102", "x/ftdc/events/histogram.go:64-118", "x/ftdc/hdrhist/snapshot.go:16-25"]}
{"id": "C80", "title": "The interval histogram recorder hands on what was reported and blocks nobody", "statement": "Under every interleaving of callers, background workers, tickers and cancellations, the interval histogram recorder holds and hands on exactly the values that were reported since the last event was handed on, in the order in which the calls got the lock, each value once; EndTest hands on the rest and returns an error exactly if something failed; no call waits forever for the lock.", "quantifier": "all numbers of callers and workers, all interleavings, all clocks, all failures of the underlying collector, all histogram libraries", "why_tests_cant": "The tests use one goroutine, a fixed interval and sleeps; a tick between EndTest's cancellation and the worker's look at its context, or reports between a tick and EndTest, happen only under particular schedules.", "anchors": ["x/ftdc/events/recorder_histogram_interval.go:12-191"]}
{"id": "C81", "title": "Synchronized recorders and collectors of the events package make calls one at a time and the shim controls the timer", "statement": "A synchronized recorder or collector behaves, under every interleaving of callers, as if the calls were made one after the other on the wrapped one, each with the same method and argument and its result; no call waits forever, also after a call of the wrapped one panicked. A shim recorder passes all calls on, starts the timer when an iteration begins, stops it when it ends, and resets it at Reset.", "quantifier": "all wrapped recorders and collectors, all numbers of callers, all interleavings, all sequences of calls", "why_tests_cant": "The tests call the wrappers from one goroutine; none makes the wrapped recorder panic, and none looks at the timer of the shim.", "anchors": ["x/ftdc/events/recorder_wrapper_sync.go:8-80", "x/ftdc/events/recorder_wrapper_stdlib.go:6-40", "x/ftdc/events/collector.go:204-255"]}
{"id": "C82", "title": "Statistics of the Go runtime are the totals, deltas and rates of its counters", "statement": "For every sequence of collections, a collection of totals returns the counters of the runtime, a collection of deltas what was counted since the last one, so that the deltas add up to the totals, and a collection of rates that by the time since then; the pause returned is that of the last garbage collection, and the document has all of it under the documented names.", "quantifier": "all sequences of collections of all kinds, all counters below 2^63, all times, all numbers of garbage collections", "why_tests_cant": "Tests call the collectors once or twice and look at whether fields are set; whether deltas add up depends on the times and kinds of all collections of the process.", "anchors": ["x/ftdc/metrics/golang_info.go:11-92", "x/ftdc/metrics/golang_info.go:111-270"]}
{"id": "C83", "title": "The worker pools of the metrics package finish with every result exactly once", "statement": "Whatever the scheduling, CollectAllProcesses returns the information of every process exactly once, and the parallel mode of generate returns with one document of every collector; a collector that panics is reported and does not keep the others from being run.", "quantifier": "all interleavings of all numbers of workers, all numbers of items, all ways items can panic", "why_tests_cant": "The number of schedules is exponential in the number of processes and workers; a test sees one schedule on one machine and cannot tell a slow call from one that never returns.", "anchors": ["x/ftdc/metrics/process_info.go:80-116", "x/ftdc/metrics/metrics.go:94-131"]}
{"id": "C84", "title": "Runtime collection keeps every sample it has taken", "statement": "CollectRuntime accepts exactly sensible options; whatever the order in which its timers fire and whatever fails, what its files hold are the samples taken, once each and in order, a new file being started at each flush interval that had samples; when it returns, no sample that was taken is missing.", "quantifier": "all options, all orders of timer events and cancellation, all contents of samples of one shape, all failures of creating, writing and closing files", "why_tests_cant": "A run that loses samples needs an error at a particular moment of a process that runs for hours; tests run it for seconds, without failures.", "anchors": ["x/ftdc/metrics/metrics.go:134-246"]}
{"id": "C85", "title": "Collecting a JSON stream keeps every line or reports an error", "statement": "CollectJSONStream accepts exactly one source, and follows only files; it ends; if it returns nil then every line of the source was a sample and the files hold the samples of all lines in order; at any time the files hold only samples of lines, once each and in order; following a file hands over every line that is appended.", "quantifier": "all contents of the source, all interleavings of the source goroutine, the main loop, the flush timer and cancellation, all failures of opening, closing, adding and flushing", "why_tests_cant": "The losses need a cancellation or an error at a particular moment between two goroutines, or a line of 64 KiB; tests read one small well-formed file.", "anchors": ["x/ftdc/metrics/json.go:31-258"]}
{"id": "C86", "title": "Samples of the system, the process and the Go runtime", "statement": "A sample of the metrics package has a number, a time and the process id and then those of the parts golang, system and process that were asked for, each with everything under its own name and in one fixed order; with custom collectors that is the document runtime, followed by their documents in order. A uint64 comes as the int64 with the same bits, so negative from 2^63 on. What could not be found out is zero and the errors are not in the document. Two samples with the same parts have the same numbers of kinds exactly if they have as many file systems, disks and network interfaces; otherwise a collection loses what it has. Disks come in any order, so what is read from a file does not say which disk is which. A list of percents that is empty without an error takes the program down, and so does a custom collector that returns nil.", "quantifier": "all answers of the operating system to each question with and without errors, all counters, all lists of disks, file systems, interfaces and partitions, all custom collectors, all trees of processes", "why_tests_cant": "The answers depend on the machine the tests run on; the tests check that documents are not empty and never change the number of disks, see a counter from 2^63 on, an error from the operating system or a collector that returns nil.", "anchors": ["x/ftdc/metrics/metrics.go:55-92", "x/ftdc/metrics/runtime.go:7-26", "x/ftdc/metrics/process_info.go:57-75", "x/ftdc/metrics/process_info.go:118-147", "x/ftdc/metrics/process_info.go:149-239", "x/ftdc/metrics/system_info.go:44-57", "x/ftdc/metrics/system_info.go:67-132", "x/ftdc/metrics/system_info.go:134-233", "x/ftdc/metrics/birch_builders.go:8-35"]}
{"id": "C87", "title": "What copies share, and what marshalling changes", "statement": "A call changes nothing but the object it is made on and new objects, and marshalling changes nothing but the bytes of values of type code with scope; so what does not reach a changed object stays as it is. A copy of an element or a value that was not opened keeps what it is whatever is done to the original; if it was opened the two have one document. A copy of a document has its own list and the same elements. A document that is read is not changed by marshalling it, nor are the bytes it was read from, and marshalling gives those bytes again, also after documents and arrays in it were opened; opening changes no other value, and opening again gives the same document. Marshalling a document that contains itself never ends, and one without cycles can always be looked at.", "quantifier": "all objects and references between them, all sequences of calls, all slices of shared buffers, all documents", "why_tests_cant": "What a copy shares shows only when one of the two is changed later, and that marshalling writes to the buffer of its input only when someone else looks at it; tests look at one document at a time.", "anchors": ["value.go:45-61", "element.go:36-38", "element.go:150-268", "element.go:327-351", "x_element.go:4", "document.go:45-51", "document.go:288-302", "iterator.go:106-112", "value.go:605-626", "value.go:663-684", "value.go:990-1017"]}
{"id": "C88", "title": "What a sample given to a collector may be", "statement": "A sample or the metadata given to a collector may be a document, bytes, a Reader, an array, a map or any type with a marshaling method, and is recorded as the document it stands for; a map is recorded in the order of its keys however it is visited. Nil, maps of strings, sets, truncated bytes and failed marshaling are errors that leave the collector as it is, and so are other types unless a marshaler is registered, whose output is read then. The numbers of all samples taken without error are read back.", "quantifier": "all samples of all types, all visits of maps, all registered marshalers, all sequences of samples of the same structure", "why_tests_cant": "The argument of Add is of type any and the documents made from maps depend on the order of a visit; tests give a few types and cannot choose the order in which a map is visited.", "anchors": ["x/ftdc/util.go:18-56", "x_constructor.go:167-202", "x_document.go:39-72", "x/ftdc/collector_better.go:35-43", "x/ftdc/collector_better.go:70-74", "x/ftdc/util/driver_shim.go:17-36"]}
{"id": "C89", "title": "The series of a chunk", "statement": "The series of a chunk that can be read are one for each metric key, each with as many values as there are samples, its value for a sample being that of the field of this name in the flat document of the sample. ReadSeries gives for each chunk what the registered marshaler makes of these series, in order, collecting the errors of chunks for which it fails and going on.", "quantifier": "all chunk payloads that can be read, all registered marshalers, all files of a collector", "why_tests_cant": "The keys of metrics come from the data and may coincide; tests read one generated file, and only after they have registered a marshaler.", "anchors": ["x/ftdc/ftdc.go:49-55", "x/ftdc/ftdc.go:110-143", "x/ftdc/iterator.go:123-149", "x/ftdc/util/driver_shim.go:11-43"]}
{"id": "C90", "title": "jsonx documents made in Go", "statement": "A jsonx document made with the constructors of jsonx becomes, by DC.JSONX, DCE.JSONX and the two Interface constructors, the BSON document it stands for, or the failing variant returns an error. Document.ElementAtIndex gives the element at the index or nil. Copy gives a document (or array) that shows the same and that can be changed without changing the original.", "quantifier": "all jsonx documents (any nesting, all types of numbers), all indices, all changes of a copy", "why_tests_cant": "Tests convert documents that were parsed from text, whose numbers have only two types, and copy flat documents.", "anchors": ["jsonx/juniper.go:13-95", "jsonx/constructor.go:157-233", "x_json_unmarshal.go:73-118", "constructor.go:133-134", "constructor.go:187-195"]}
{"id": "C91", "title": "Walking over a Reader by number and with an iterator", "statement": "Reader.ElementAt and the loop over Reader.Iterator see the same elements, those that ReadDocument reads, and fail at the same place with the same error. ElementAt looks only at the elements up to the wanted one, returns an error past the last one, never panics and always returns. Each loop over an iterator sees all elements.", "quantifier": "all bytes, all numbers, all sequences of loops over one iterator and all points at which they are left", "why_tests_cant": "Tests use valid documents and one complete loop; agreement on malformed bytes, and what a second loop over the same iterator sees, are not sampled.", "anchors": ["reader.go:155-198", "reader.go:239-305", "iterator.go:54-128"]}
{"id": "C92", "title": "ObjectIDs in JSON", "statement": "An ObjectID written as JSON is read back as the same id. UnmarshalJSON accepts exactly JSON strings of 24 hexadecimal digits and objects with such a string for $oid, and leaves the id alone when it returns an error. MustObjectIDFromHex panics exactly for the texts ObjectIDFromHex refuses.", "quantifier": "all ids, all receivers, all bytes and everything a JSON decoder may make of them", "why_tests_cant": "Tests read a few well-formed texts; that every text of one particular length is accepted, and what an error leaves behind, are not sampled.", "anchors": ["types/objectid.go:54-146"]}
{"id": "C93", "title": "The metadata of FTDC chunks", "statement": "Metadata given to a collector are in force for every chunk it writes until they are set again; Reset and writing out a chunk keep them. A chunk that is read has the last metadata document before it in the file.", "quantifier": "all sequences of calls to a collector, all documents, all files of chunks and metadata documents", "why_tests_cant": "Tests set the metadata once and resolve once; what is in force after a reset, a flush or a split into several chunks depends on the order of calls.", "anchors": ["x/ftdc/read.go:37-160", "x/ftdc/collector_better.go:35-50", "x/ftdc/collector_batch.go:41-47", "x/ftdc/collector_dynamic.go:42-49", "x/ftdc/collector_streaming.go:37-129"]}
{"id": "C94", "title": "Element encoders at every position", "statement": "An encoder of package elements given any uint as its start position writes its bytes there if they fit into the buffer, and otherwise returns ErrTooSmall; it does not panic and never writes anywhere else.", "quantifier": "all positions below 2^64, all buffers and values that fit in memory together", "why_tests_cant": "Tests use positions near the buffer; the size checks convert the position to int, which only matters for positions no test tries.", "anchors": ["elements/elements.go:112-981"]}
{"id": "C95", "title": "Constructors given malformed arguments", "statement": "Marshalling a document made with the element constructors returns bytes that are read as the elements that were given, or an error; it never returns the bytes of another document, whatever keys, patterns, options and subtypes the constructors were given.", "quantifier": "all lists of scalar elements with any bytes in keys, strings, patterns and options, all subtypes, of any total size below 2 GB", "why_tests_cant": "Tests build documents from well-formed names; what a NUL byte in a key does depends on how the declared sizes and the written bytes disagree, for every type and length.", "anchors": ["constructor.go:200-588", "element.go:62-178", "value.go:198-482"]}
{"id": "C96", "title": "Readers of values", "statement": "Value.Reader returns the payload of a value of any type and panics only if the value is not initialised or corrupt; the reader of an array (also ReaderArray) is the array as BSON, with the values under their positions, whether or not the array has been opened, changed or built with constructors.", "quantifier": "all values, read or constructed, opened or not, of any size below 2 GB", "why_tests_cant": "Tests take the reader of documents just read; the result for an array depends on how it was made and on what was deleted from it, and that for other types on the bytes behind the value.", "anchors": ["value.go:551-602", "value.go:638-660", "constructor.go:276-293", "array.go:28-36"]}
{"id": "C97", "title": "Loops over a Reader iterator after an error", "statement": "When a loop over Reader.Iterator() has met an error, every later loop over the same iterator gets an error and no elements, and the body of a loop is never called after it has left the loop.", "quantifier": "all byte strings, any number of loops, each left at any element or not at all", "why_tests_cant": "Tests run one loop over one iterator; what a second one gets depends on how many bytes validate reports beside each kind of error, and the call after a break needs an old error and a good element.", "anchors": ["iterator.go:86-128", "reader.go:185-198", "value.go:198-482", "reader.go:88-102"]}
{"id": "C98", "title": "Loops over a document that is changed meanwhile", "statement": "A loop over Document.Iterator() gets exactly the elements the document had when Iterator was called, each once, even if the document is changed before or during the loop.", "quantifier": "all documents reached by any calls, any calls between Iterator and the loop and in each of its turns, any growth of slices", "why_tests_cant": "Whether a change is seen depends on whether slices share an array, that is on capacities and on which calls write in place; tests try a few sizes.", "anchors": ["document.go:62-159", "document.go:145", "x_document.go:19-22", "x_document.go:88-90", "iterator.go:138-140", "array.go:170-198"]}
{"id": "C99", "title": "Buffers taken from the pool", "statement": "What the calls that use pooled buffers return depends only on their arguments, never on what a buffer contained before, and the bytes they returned are never changed by a later call.", "quantifier": "all sequences of calls, all choices of buffers and capacities by the pool, any earlier contents, callers that overwrite what they were given", "why_tests_cant": "Whether a buffer is reused, with which capacity and contents, depends on the garbage collector and on all earlier calls; tests see mostly fresh buffers.", "anchors": ["document.go:22", "document.go:305-333", "reader.go:32-69", "array.go:201-219", "array.go:271-285", "x/ftdc/collector_better.go:133-152", "x/ftdc/collector_dynamic.go:80-92", "x/ftdc/collector_uncompressed.go:190-210", "x/ftdc/util.go:90-110"]}
{"id": "C100", "title": "The texts of documents, readers and arrays", "statement": "The String methods print every element with its type, key and value, in order; they end without a panic whatever the bytes; and two documents with the same text are the same.", "quantifier": "all documents with well formed values, all bytes for readers, all texts of floating point numbers, times and quoted strings", "why_tests_cant": "The text depends on every type and on nesting, and whether two documents look alike is a claim about all pairs; tests print a few simple values.", "anchors": ["document.go:336-351", "element.go:287-294", "reader.go:201-220", "array.go:201-219", "bsontype/bsontype.go:40-87", "types/types.go:34-62", "types/objectid.go:54-56"]}
{"id": "C101", "title": "Damaged and truncated FTDC data", "statement": "Whatever bytes follow the first sample of a chunk, reading it ends with a chunk or an error, never with a panic. It is read exactly if the bytes have the documented form, and then its values are those that the differences give; data that break off, and files that break off, give an error.", "quantifier": "all well-formed first samples below 2 GiB, all bytes after them, all metadata, all places where the data break off, all ways the bytes arrive", "why_tests_cant": "The bytes come from files that may be damaged anywhere; tests read a few intact files, and never the places where a number, a run of zeros or a document is cut.", "anchors": ["x/ftdc/read.go:17-35", "x/ftdc/read.go:84-156", "x/ftdc/util.go:60-88", "document.go:305-333"]}
{"id": "C102", "title": "The bytes that are taken for a document, exactly", "statement": "ReadDocument and Reader.Validate accept exactly well-formed documents: the declared length is the length, strings end in a NUL, embedded documents are documents; and what was accepted is marshalled again as the same elements.", "quantifier": "all byte strings below 2 GiB without oversized or negative length fields; all documents read from them", "why_tests_cant": "The accepted language is infinite and the deviations from BSON are between fields (a length against the place of a zero byte), where tests with valid documents and a few broken ones never look.", "anchors": ["reader.go:73-102", "reader.go:239-305", "iterator.go:64-123", "value.go:198-482", "document.go:34-42", "document.go:288-302", "element.go:150-268"]}
{"id": "C103", "title": "Performance events come back from an FTDC file", "statement": "Events that are recorded, marshalled, collected into FTDC chunks, written, read with ReadStructuredMetrics and unmarshalled are the events that were recorded.", "quantifier": "all sequences of events or of recorder calls; base, batch and streaming collectors of any size, with or without metadata; any lossless compressor", "why_tests_cant": "The whole path crosses the recorders, the event documents, the delta encoding, the chunk format and the reader; the tests of the repository look at one stage at a time and never compare the events at both ends.", "anchors": ["x/ftdc/events/performance.go:25-188", "x/ftdc/events/collector.go:1-255", "x/ftdc/events/recorder_performance_raw.go:22-68", "x/ftdc/events/recorder_performance_single.go:21-62", "x/ftdc/events/recorder_performance_grouped.go:25-78", "x/ftdc/collector_better.go:1-193", "x/ftdc/collector_batch.go:1-77", "x/ftdc/collector_streaming.go:1-129", "x/ftdc/util.go:18-23"]}
{"id": "C104", "title": "What an FTDC collector writes depends only on the documents as they were when added", "statement": "The chunk that a base collector resolves to is the chunk of the documents as they were when Add was called, and of the metadata as it was when SetMetadata was called, whatever the caller does to its documents, elements and values afterwards.", "quantifier": "all object graphs; all programs of calls of Add and of functions of documents, elements and values, in any order; any compressor", "why_tests_cant": "Every test of the collectors makes a new document for each sample. Reusing one document, the natural way to save allocations in a sampling loop, is not tested, and the files that result are well-formed.", "anchors": ["x/ftdc/collector_better.go:13-193", "x/ftdc/bson_extract.go:16-121", "x/ftdc/util.go:18-23", "value.go:45-61", "x_element.go:4", "document.go:45-51"]}
{"id": "C105", "title": "The FTDC files made from JSON lines hold the numbers of the lines", "statement": "CollectJSONStream writes a file for each flush that finds samples, and reading these files returns, for each line of JSON in its order, a document with the numbers of that line under the keys of that line.", "quantifier": "all texts of lines in any spelling of JSON that the reader accepts; all sequences of lines and flush timer expirations; all chunk sizes; any compressor", "why_tests_cant": "The tests collect from generated lines in which every field keeps its type and its range and compare the number of samples. That a growing counter changes its BSON type at 2^31-1, or that two kinds of records alternate, needs inputs that the tests do not make, and the claim is about the whole way from text to file and back.", "anchors": ["x/ftdc/metrics/json.go:31-219", "x_json_unmarshal.go:73-168", "jsonx/constructor.go:26-34", "x/ftdc/collector_dynamic.go:9-92", "x/ftdc/bson_hash.go:12-67"]}
{"id": "C106", "title": "JSON text becomes the BSON document that it stands for", "statement": "UnmarshalJSON followed by MarshalBSON turns a JSON object, however it is written, into the BSON document with its keys and values, or returns an error; it never returns the bytes of another document.", "quantifier": "all texts of all objects, with any characters, escaped or not, in keys and values", "why_tests_cant": "The tests convert objects with plain keys. A NUL is only possible in a key as an escape, and what it does depends on how the key, the string and their lengths fit together.", "anchors": ["x_json_unmarshal.go:21-37", "x_json_unmarshal.go:90-140", "constructor.go:200-588", "document.go:272-286"]}
{"id": "C107", "title": "Marshalling nested values under malformed keys", "statement": "MarshalBSON of a document made with the constructors, with documents, arrays and code with scope of any nesting and whatever bytes are in the keys, returns the bytes of the document given, or an error; it does not panic and does not return other bytes.", "quantifier": "all documents of any nesting, any bytes in all keys and regular expressions, of a total size below 2 GB", "why_tests_cant": "The size of a document is computed with the keys cut off at their first NUL, and nested values are written with their whole keys, so every write may come to lie behind the end of the buffer. Whether that is an error or a panic depends on the lengths of all keys and values before it.", "anchors": ["element.go:46-98", "element.go:122-268", "array.go:223-268", "document.go:199-286", "constructor.go:200-588", "x_json_unmarshal.go:21-37"]}
{"id": "C108", "title": "Streaming FTDC collector on documents that are changed", "statement": "What a streaming collector writes for the documents it was given is what they were when Add was called with them, whatever the caller does to them afterwards; no document that was added without an error is missing in the file or is in it twice.", "quantifier": "all programs of Add and calls on elements and values, all documents, maximal numbers of samples, metadata, times and compressors", "why_tests_cant": "Whether the file is right depends on when a document is changed: before the chunk it is the first of is written or after that, which happens in some later Add.", "anchors": ["x/ftdc/collector_streaming.go:10-78", "x/ftdc/collector_better.go:13-193", "x/ftdc/bson_extract.go:16-121", "x_element.go:4"]}
{"id": "C109", "title": "CSV table of a collected FTDC file", "statement": "Reading an FTDC file with ReadChunks and writing it with WriteCSV gives the names of the numbers of the first document and then one row for every document that was collected, in order, with the numbers of that document: integers in decimal, booleans as 1 and 0, dates as the text of their second, both parts of a timestamp, the bits of a double.", "quantifier": "all files of chunks in the format that the collectors write, with any documents, metadata, times and compressors; all sources that deliver the file", "why_tests_cant": "A row is the sum of differences that were computed, compressed and put into another order by the collector; a test sees the few documents it was written for.", "anchors": ["x/ftdc/csv.go:18-68", "x/ftdc/iterator_chunk.go:13-43", "x/ftdc/read.go:17-179", "x/ftdc/collector_better.go:70-193"]}
