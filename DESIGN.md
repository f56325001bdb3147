# Formal model of tychoish/birch: design

The source under study is the Go code in `/repo` (module `github.com/tychoish/birch`).
The model and proofs are in `lean/Verif/`.  Each property of `properties.jsonl`
is listed below with what is modelled and how it is proved.

## Conventions of the model

* A Go byte slice is a `List UInt8`.  Capacity is not modelled: slicing
  past the length is a panic (in Go, slicing past the *capacity* is).
  A nil `data` slice is the empty list.
* `int` is 64 bit and is modelled by `Int`/`Nat`; `int32`/`uint32`/`int64`/`uint64`
  arithmetic wraps explicitly wherever the code computes in those types.
* Every Go function that can fail returns one of `ok`, `err`, `panic`, or
  (for loops whose termination is in question) `oof` (out of fuel).  Loops over untrusted bytes
  take a fuel argument; "the call returns r" means that all large enough
  fuels give r, and "the call never returns" means that no fuel is enough.
* Pointers are modelled by values: a `Document` is the list of its elements.  Aliasing is modelled
  where a property is about it: `Model/Graph` (C87) and `Model/FtdcShared` (C104) for objects, `Model/DocHeap`
  and others for slices.
* Specification side: `Verif/Spec/*.lean` contains an
  independent abstract syntax of BSON documents and the encoding from bsonspec.org.
  It does not use any model function.

## Plan per property

| id | modelled | proof |
|----|----------|-------|
| C01 | constructors, `Validate`, `writeByteSlice`, `MarshalBSON` for documents, elements, arrays | representation relation between in-memory values and abstract BSON; induction on it |
| C02 | `readerIterator`, `UnmarshalBSON`, accessors, lazy `Mutable*` | loop invariant over the remaining bytes; induction on abstract documents |
| C03 | same | corollary of C01 for mixed representations |
| C04 | `Validate` and the writers | induction over values, no well-formedness assumed where possible |
| C05 | specification encoding | induction: decoder is a left inverse |
| C06 | `Reader.Validate` | loop invariant |
| C07 | `Array` writer and reader | induction with the index |
| C08, C09 | constructors/accessors per type | case analysis, little-endian lemmas |
| C10 | reader loops with wrap-around arithmetic | false as stated: witnesses of divergence and panic; partial theorem for inputs without negative or overflowing lengths |
| C11 | `io.ReadFull` over a list of read segments, `ReadFrom` | induction on segments |
| C12-C15, C20 | document/array operations | refinement to list operations |
| C16 | `Search`, `findElementForStrKey`, `RecursiveLookup` | refinement to abstract path lookup |
| C17 | stable sort | the specification of `sort.Stable` is implemented by insertion sort; permutation + sortedness + stability |
| C18 | `IsEmpty`, `AppendOmitEmpty` | case analysis per type |
| C19 | document with cache | false as stated: witness; partial theorem for the operations that invalidate |
| C21 | `Equal` and its readers | canonical-bytes characterisation |
| C22 | `elements` encoders over a buffer | frame lemmas |
| C23 | `EC.Int`, `EC.Interface` | false below -2^31: witness; partial above |
| C24 | time arithmetic | integer division lemmas |
| C25 | hex | induction |
| C26 | interleaving of atomic increments | invariant over schedules |
| C27 | `divmod`, `muladd` | exact arithmetic over Nat |
| C28 | `String`, `ParseDecimal128` | digit-list induction; a grammar of written numbers (`Spec/DecimalText.lean`), soundness and completeness of the reader with respect to it; negation for missing range checks |
| C29, C30 | JSON writer | independent JSON string grammar; negation for unescaped keys |
| C31, C32 | varint, zero-run coder | induction on deltas with carried zero count |
| C33, C34 | base collector, reader, restore | induction on samples; negation for doubles and timestamps |
| C35-C37 | batch/streaming/dynamic collectors | invariants over histories; negations where hash is not updated |
| C38, C39 | `metricForType`, `rehydrateMatrix`, restore | induction; negation for depth >= 2 paths |
| C40, C41 | per message serialize/parse | round trip per message |
| C42, C43 | `ReadMessage`/`SendMessage` over segmented I/O | negation for over-read; induction for writes |
| C44, C45 | registry map, namespace split | invariant over histories |
| C46 | shell documents | round trip / negation |
| C47-C50 | events package | induction over histories; transition system for the interval recorder (reachable deadlock) |
| C51 | blist | refinement / negation |
| C53 | `intervalStream` | invariant over all schedules / negation |
| C55, C56 | JSON validator, tokenizer, unescaper, value conversion | grammar of JSON with its denotation; soundness and completeness of the scanner by induction on derivations and on fuel |
| C57 | JSON writer and reader | the written text is derived in the grammar, then C55 |
| C58 | the parsers of the wire messages, on prefixes | every reader on a proper prefix of what it reads is an error; composed per message kind / negation |
| C59 | `toJSON` of documents, arrays and values, with the JSON writer of C30 | relation between BSON values and their extended JSON; what is read from the text is related to the document / negation for three types |
| C60 | `toJSON`, the JSON writer and reader, `convertJSONElements` | relation that says what each value comes back as; induction on the value, with C57 for the text in between / negations |
| C61 | `convertJSONElements`, `UnmarshalJSON` of documents, arrays and values | C55 for the text, induction on the JSON value for the rest / negations |
| C62 | `convertJSONElements`, `UnmarshalJSON` of documents, arrays and values | specification relation `Reads` between JSON values and BSON values (Spec/ExtJson), induction on it, C55 for the text / negations |
| C63 | `Value.Interface`, `ExportMap`, `Array.Interface` | specification function `goOf` from BSON to Go data and relation `Denotes` back (Spec/GoValue); induction on values and on `Denotes`; map order as a permutation relation at every depth / negations |
| C64 | `EC.Interface`, `ECE.Interface`, `DC.Interface`, `DCE.Interface`, map and slice constructors | relation `Denotes` between Go data and BSON values, mutual induction / negations |
| C65 | DocMap: maps as lists of entries in any order; the reader loop element by element | fields written, last one wins; round trip for every permutation; counterexamples for keys and errors |
| C66 | FtdcCsv: records as lists of fields, a writer with a plan of failures; `WriteCSV`, `DumpCSV` over chunks | induction over points, chunks and groups of chunks; counterexample for changed names |
| C67 | FtdcCsv: the loop of `ConvertFromCSV` over the streaming dynamic collector of C37 | rows are documents, then C37; counterexamples for widths, the final flush and mixed columns |
| C68 | FtdcUncompressed: the uncompressed collector, and the streaming collectors around it | invariant of the histories of Add; C11 and C59 for reading back; counterexamples for all limits and documents |
| C69 | FtdcWriter: `Write` and `Close` over the streaming dynamic collector of C37 | reading documents followed by anything, then C37; counterexamples for all documents |
| C70 | FtdcWriter: `Sampling` around any collector, with two readings of the clock for each call | induction over the calls against a relation of attempts and decisions |
| C71 | Buffered: transition system of any number of callers, the goroutine, the channel and the context | invariants over all executions; queue contents = accepted minus added |
| C72 | Synchronized: transition system with a readers-writer lock, methods as read and write steps | invariant of the lock; the effects form a sequential history |
| C73 | the elements `readDocument` yields have passed `rawSize`; accessors against the size checks | case analysis per type, with the wrap-around of uint32 and int32 arithmetic |
| C74 | `ReadChunks` as a transition system of the loop, `readChunks` and `readDiagnostic` with unbuffered channels, context and error collector (Model/ReadPipe); the sequential reader is that of Model/Ftdc | invariant: what was yielded, what is in hand and what is still to be read make up the sequential result; a decreasing measure; schedules constructed for the negative parts |
| C75 | `getModel` and `hasResponse` over the messages of Model/Wire; what a view has to show and the bits of flags are in Spec/WireModel | case analysis, composed with the parsing theorems of C40 |
| C76 | the base collector and reader of Model/Ftdc; the layout in Spec/FtdcLayout: LEB128, runs of zeros, differences by metric | the collector's invariant gives the table of deltas; induction over the deltas for the run coder; reading through C33 |
| C77 | `dispatchRequest` with the goroutines of handlers, the connection and the context as a transition system, `Run` as another (Model/Service), on top of `ReadMessage` (Model/WireSock) and the registry (Model/Registry) | invariants over all executions: what was started and what is still to be read make up the conversation; schedules constructed for the negative parts and for completion |
| C78 | `Add`, `Sort`, `MarshalDocument`, `MarshalBSON`, `UnmarshalBSON` on lists of points over the Go values of C64 (Model/Custom) | sorting is the stable sort by name (C17); the document represents the fields the points stand for (C64); read back with the export of C63 |
| C79 | Model the three recorders over an abstract histogram library; invariant relating every state to a specification computed from the history of calls | `Props/Histograms` |
| C80 | Transition system of callers, workers, contexts and lock over the histogram model of C79; invariant of the lock; invariant relating the data to a specification of histories of calls and ticks | `Props/IntervalHist` |
| C81 | Transition system of callers and mutex over any recorder that may panic; the collector is an instance of C72; the shim as lists of actions | `Props/SyncRecorder`: invariant, simulation / negations |
| C82 | The cache as a state, collections one after the other (all hold its lock), what runtime and clock show as parameters | `Props/GoStats`: induction over the collections / negations |
| C83 | A transition system of workers, two channels, the wait group and the main goroutine | `Props/Pool`: decreasing measure, invariant, stuck states / negations |
| C84 | The loop as a function of the list of select cases taken; the disk as a parameter; streaming collector of C36 | `Props/Collect`: invariant of closed files, current file and collector; negations |
| C85 | Goroutine of the source and main loop as a transition system with any interleaving; `bufio.Scanner` as a function of the contents | `Props/JsonStream`: invariants of the samples in files, collector and channel; a measure; executions as witnesses of the losses |
| C86 | Each marshaler, `populate` and `MakeSystemInfo` as functions of what the operating system answers | `Props/Metrics`: the specification lists the fields in order; a representation per document; kinds and shape by counting |
| C87 | Values, elements, documents and byte arrays as numbered objects that refer to each other; each call changes the objects | `Props/Graph`: what each call writes, by cases; a frame lemma along references; marshalling by simulation with the tree model; opening by comparing the trees before and after |
| C88 | `readDocument` with its branches, over Go values of any type; `Add` and `SetMetadata` in front of the document | `Props/Samples`: by cases on the type; maps by the stable sort of C17 over different keys; reading back by C33 |
| C89 | the map of `exportMatrix` as a list with distinct keys, `getSeries` by type, `ReadSeries` with the registered marshaler as a parameter | `Props/SeriesView`: the fold keeps the last metric of each key; values by the views of C39 |
| C90 | jsonx values with the types of their numbers; the conversion through C60's `object` on their shape; a heap of values, elements, documents and arrays for `Copy` | `Props/Jsonx`: the conversion follows `buildDoc` by induction; a copy extends the heap, and all that was shown still is |
| C91 | `ElementAt` as a loop over `Next`; the iterator as a position that loops, each left at some element, pass on (Model/ReaderWalk) | `Props/ReaderWalk`: induction on the turns of the loop; encoded fields step by step, wherever the end is said to be |
| C92 | `UnmarshalJSON` over what a JSON decoder, a parameter, makes of the bytes; `hex.Decode` as it writes (Model/ObjectIDJson) | `Props/ObjectIDJson`: induction on the pairs of digits |
| C93 | The calls of the collector interface as one type, the metadata after a history of calls, which metadata is in force at a chunk of a file (Model/FtdcMetadata, Spec/FtdcMetadata) | `Props/FtdcMetadata`: invariants over histories, induction on the documents of a file |
| C94 | The encoders of C22 with 64-bit arithmetic (Model/Elements64) | `Props/Elements64`: refinement of `Model/Elements`, one lemma for two calls after one another |
| C95 | The constructors of C01 with any bytes in keys, patterns and options | `Props/BadArgs`: what each element is written as (`Spec/BadArgs`), induction over the list, then the special cases |
| C96 | `Reader` and `getReader` of values (Model/ValueReader) | `Props/ValueReader`: the representation relation for documents and arrays, the bytes for the others |
| C97 | `validate(true)` and `validateKey` with the sizes they return beside errors, `Next` with the kept error, loops with `break` (Model/ReaderLoops) | `Props/ReaderLoops`: refinement of Model/ReaderWalk up to the first error; the kept error as an invariant; encoded fields on both sides of a bad value |
| C98 | a copied slice header whose array is read while calls on any documents run (Model/DocLoops on Model/DocHeap) | `Props/DocLoops`: invariant that the captured array keeps its first slots and only its document uses it; exact contents of the array after each kind of change |
| C99 | arrays, slices of them, a pool that returns any of its arrays or a new one, `Grow` that clears or not (Model/BufPool) | `Props/BufPool`: invariant that every array is in the pool or belongs to one result; contents of the buffers through each call |
| C100 | the three `String` methods and what fmt does with the Go values, panics caught by fmt (Model/Text); texts of floats, times and quoted strings are parameters | `Props/Text`: the texts written from the BSON values alone; injectivity by cutting the text at the first quotation mark; sorted permutations |
| C101 | `readUvarint`, the two loops over differences and the loop over documents of Model/Ftdc, on any bytes | `Props/FtdcDamage`: independent relations for numbers and coded differences (`Varint`, `Coded`, `Tail`); soundness and completeness of the loops with the pending zeros as invariant; prefix-freeness for cut data |
| C102 | `rawSize`, `readerKey`, `iterLoop`, `validateLoop`, `rawValidate`, `docMarshal` of Model/Value and Model/Write, on bytes that are no BSON | `Props/Accept`: an inductive grammar (`Loose`, `Items`, `Accepted`, `Deep`); soundness by induction over the fuel, completeness by induction over the grammar; `Kept`/`Copied` for marshalling; uniqueness by induction over the grammar |
| C103 | composition of Model/Recorders, Model/Events, Model/FtdcCollectors and Model/Ftdc | `Props/EventFile`: C50, C33, C35, C36, C47, C49 composed; an invariant of the recorders (`Sane`) gives events that can be recorded |
| C104 | Model/FtdcShared: `extractMetrics*`, `betterCollector` on the objects of Model/Graph | `Props/FtdcShared`: simulation of Model/Ftdc (`Sim`) that survives opening values (`Opened`) and calls that do not write to the last values; the layout of C76 with another first document |
| C105 | Model/JsonFiles: the loop of `CollectJSONStream` on the models of the JSON reader, the dynamic collector and the file reader; `Model/JsonStream` keeps the concurrency | `Props/JsonFiles`: induction on the turns with `Spec.Ftdc` layouts per session; the losses as theorems about all lines of a form |
| C106 | the models of C62 and C95, composed | `Props/JsonBson`: the reader gives the document that the constructors give, `C95_exact` and `C95_fields_from_key` say what it is marshalled as; a text for any string by induction |
| C107 | the models of C01 and C95 | `Proofs/NulKeys`: induction on the document with the size that is computed and the size that is written; `Proofs/MarshalFuel`: more fuel changes nothing |
| C108 | the streaming collector around the base collector of C104, `Model/FtdcSharedStream` | induction on the parts of the program that fill one chunk each (`Proofs/FtdcSharedStream`); `reuse`: induction on the values |
| C109 | readAll of Model/Ftdc and writeCSV of Model/FtdcCsv, `Spec/CsvRows` for the row of a document | the metrics of a chunk as it is read (`laid_content`), the rows from them (`content_rows`), induction on the chunks of the file (`laid_readChunks`); `parts_layout` for what batch, streaming and dynamic collectors write (`Props/FtdcFiles`) |
| C54 | shell service, from request bytes to answer bytes | composition of C40, C42, C44, C46 / negation |
| C52 | `Reader.Validate`, `ReadDocument`, nested readers | loop invariant; added after a seeded edit (`Reader.Validate` skipping nested documents) broke no statement |

## What is modelled, and where

| Go code | Lean | left out or simplified |
|---------|------|------------------------|
| `value.go`, `element.go`, `constructor.go`, `elements/elements.go`, `iterator.go`, `reader.go` | `Model/Value`, `Elements`, `Write`, `Constructors`, `Access`, `Programs` | `String`, `Interface`, Go-typed convenience accessors |
| `document.go`, `array.go` (mutation) | `Model/DocHeap` | slices start at index 0 of their backing array; the growth of `append` is an arbitrary parameter; element pointers are opaque names; `Append` arguments are not nil |
| sorting, `Equal`, `IsEmpty` | `Model/Compare` | `sort.Stable` is insertion sort (any stable sort gives the same result: `C17_unique`); NaN |
| `EC.Int`, `EC.Interface`, times | `Model/Ints` | |
| `Search`, `LookupErr`, `RecursiveLookup` | `Model/Search` | `strconv.Atoi`/`Itoa` modelled after the standard library |
| `ReadFrom`, `NewFromIOReader` | `Model/Stream` | `io.Reader` is a list of read results; `io.ReadFull` modelled after the standard library |
| `types/objectid.go` | `Model/ObjectID` | the clock and the random process part are arbitrary; JSON methods |
| `types/decimal.go` | `Model/Decimal` | `strings.EqualFold` on ASCII only |
| `jsonx` values and writers | `Model/Json` | `fmt` formatting of `%d`/`%f` modelled after the standard library; the specification reader (`Spec/Json`) reads RFC 8259 text and is not the code's own parser (that one is below) |
| `x/ftdc` util.go, bson_extract.go, bson_metric.go, bson_restore.go, bson_matrix.go, collector_better.go, read.go, iterator_chunk.go | `Model/Ftdc` | zlib (both directions) and subtraction of doubles are parameters; goroutines of the readers run one after the other; `startedAt` is a parameter, chunk ids are not kept |
| `x/ftdc` collector_batch.go, collector_streaming.go, collector_dynamic.go, bson_hash.go | `Model/FtdcCollectors` | FNV-1 after the standard library; an `io.Writer` is a plan of complete, short and failing writes; nil writers and negative limits |
| `x/mrpc/mongowire` header, all ten message types, `Serialize`, constructors, `MessageHeader.Parse` and the parsers, namespaces | `Model/Wire` | `GetModel` and `OpType.String`; slices of wire bytes are values |
| `x/mrpc/mongowire/sock.go` | `Model/WireSock` | goroutines and channels become a schedule of fates of each call: reported, cancelled, lost; errors of `Read` other than `io.EOF` are not modelled |
| `x/mrpc/registry.go`, `x/mrpc/mongowire/scope.go`, `Scope` of messages, dispatch in `x/mrpc/service.go` | `Model/Registry` | accepting connections and running handlers are not modelled |
| `x/blist/blist.go`: `Append`, `AppendOmitEmpty`, `Prepend`, `Set`, `Delete`, `Len`, `Validate` | `Model/BList` | the list type comes from another module and is taken to be a sequence; iteration and encoding are the ones of `Document` |
| x/ftdc/events/performance.go `Performance`, `PerformanceCounters`, … (marshal, unmarshal, `Add`, `setTimestamp`) | Model/Events | times are (seconds, nanoseconds) without a monotonic part; `stdShim` and the histogram events are left out |
| x/ftdc/events/collector.go: the basic, passthrough, sampling, random sampling and interval collectors | Model/Events | events live in a heap since collectors keep pointers; the synchronized and noop wrappers and errors of the underlying FTDC collector are left out; the clock and the random source are inputs |
| x/ftdc/events/recorder_performance_raw.go, _single.go, _grouped.go | Model/Recorders | the clock is an input; errors of the collector are left out |
| x/ftdc/events/recorder_performance_interval.go | Model/Interval | transition system with one step per lock operation; the body of a call is one step under the lock; a `select` with two ready cases may take either; a ticker with interval ≤ 0 (panic) is left out |
| x/mrpc/shell (io.go, util.go, service.go) | Model/Shell | the receiver of a failing `UnmarshalDocument`, error texts and the goroutine per request are left out; the order in which Go visits the map of handlers is an input |
| `jsonx/unmarshal.go`, `jsonx/internal/gjson.go` (validation, `ParseBytes`, `ForEach`/`Array`, `tostr`/`unescape`, `tonum`) | `Model/Gjson` | `strconv.ParseFloat`/`FormatFloat` are a parameter `Strconv`; error texts are not modelled; path queries (`Get`), result caches and indexes of `gjson` are not used by `jsonx` and left out |
| `x_json_marshal.go`, `x_json_unmarshal.go` | `Model/ExtJson` | formatting and parsing times (package time) is the parameter `Clock`; `JSONX` and jsonx values that the JSON reader does not make (int32, int64, float32) |
| constructor.go:36-197, x_constructor.go:98-303, value.go:65-126, x_document.go:24-33, x_array.go | `Model/GoValue` | a Go value is its dynamic type and contents; a map is its entries in visiting order; `bestStringAttempt` has been applied to the keys of a `map[any]any`; results of methods of other packages (`MarshalBSON`, `MarshalDocument`) are parameters, float32 to float64 conversion is a parameter; no typed nil pointers, no `*jsonx.Document` |
| `unmarshal.go` (`DocumentMap`), `Document.Unmarshal`, `Document.UnmarshalBSON` with the elements kept on errors | `Model/DocMap` | elements are immutable and not nil: shared pointers are not shown; the type switch of `Unmarshal` is two functions, user types are left out; the error collector is assumed to report an error when given one |
| `x/ftdc/csv.go` | `Model/FtdcCsv` | `encoding/csv` (records are lists of fields; nothing reaches the writer before a flush); files and directories; log messages; the format of dates is a parameter; context cancellation |
| x/ftdc/collector_uncompressed.go, collector_streaming.go around it | `Model/FtdcUncompressed` | `SetMetadata` and `Add` of other things than documents; negative limits |
| x/ftdc/writer.go, collector_sample.go | `Model/FtdcWriter` | the texts of errors |
| `x/ftdc/collector_buffered.go` | `Model/Buffered.lean` | atomic methods of the collector inside (the code does not protect it: Resolve and the goroutine race); a panic ends only its caller |
| `x/ftdc/collector_sync.go` | `Model/Synchronized.lean` | fairness of the lock |
| x/ftdc/iterator_chunk.go `ReadChunks`, read.go `readChunks`/`readDiagnostic` as goroutines, iterator.go `Close` and the deferred `Push(chunks.Close())` | `Model/ReadPipe` | the error collector and the context behave as documented; one loop per iterator; `metasourceImpl` left out |
| x/mrpc/mongowire/message.go `GetModel`, `HasResponse` of the messages | `Model/WireModel` | that documents are shared with the message |
| x/mrpc/service.go `Run`, `dispatchRequest`, `handleError` | `Model/Service` | TLS handshake; error handlers that panic; texts of errors; handlers are programs that write and then return or panic; a `Write` is atomic |
| x/ftdc/events/custom.go:26-103 (`Custom`), x_marshaler.go:30-42 | `Model/Custom` | capacities (`MakeCustom`); sharing of the array of a `Custom` with other slices |
| x/ftdc/events/recorder_histogram.go, recorder_histogram_single.go, recorder_histogram_grouped.go, histogram.go:64-118, x/ftdc/hdrhist/snapshot.go:16-25 | `Model/Histograms` | The library `fun/dt/hdrhist` (any function for new, record, snapshot); texts of errors; the event is given to the collector by pointer and taken to be read at once, as the collectors of x/ftdc do |
| x/ftdc/events/recorder_histogram_interval.go | `Model/IntervalHist` | As for C79; period of the ticker, fairness of the lock, tickers with an interval that is not positive; the worker's `Timestamp = time.Time{}` on the event already handed on |
| x/ftdc/events/recorder_wrapper_sync.go, recorder_wrapper_stdlib.go; x/ftdc/events/collector.go:204-255 | `Model/SyncRecorder` | fairness of the locks; callers that do not recover a panic (the process ends) |
| x/ftdc/metrics/golang_info.go | `Model/GoStats` | the map of `CollectBasicGoStats` apart from the rates (division of doubles is a parameter); `runtime` and `time` are parameters |
| x/ftdc/metrics/process_info.go:80-116, metrics.go:94-131 | `Model/Pool` | what is collected is a function with a result or a panic; the creation of channels and workers is one step |
| x/ftdc/metrics/metrics.go:134-246 (options, CollectRuntime) | `Model/Collect` | an execution is the list of select cases taken; the result of generate is part of the case; timers, file names and messages are left out |
| x/ftdc/metrics/json.go:31-258 (CollectJSONStream, getSource for readers and files, follow) | `Model/JsonStream` | the parsing of a line is a parameter; the collector is the list of its samples; timers can fire at any time; the goroutine around `follow` (json.go:112-142) and opening the watcher are left out; `bufio.Scanner` is modelled from its documentation |
| x/ftdc/metrics/metrics.go:55-92, runtime.go, process_info.go, system_info.go, birch_builders.go, platform_linux.go | `Model/Metrics` | answers of gopsutil are inputs; `int64(float64)` is a parameter `trunc`; the disks come in the order of the list given; processes are finite trees; parallel collectors are in `Model/Pool` |
| value.go:23-61, 605-626, 663-684, 990-1017, element.go:36-38, 122-268, 327-351, document.go:34-51, 236-302, x_element.go:4 | `Model/Graph` | one goroutine; a document is the list of its elements (its slice is in `Model/DocHeap`); nil pointers inside documents are left out; constructors give an element with its own bytes |
| x/ftdc/util.go:18-56, collector_better.go:35-43, 70-74, x/ftdc/util/driver_shim.go:17-36 | `Model/Samples` | types with marshaling methods are given by what the method returns; nil pointers of the named types are left out; a registered marshaler does not panic |
| x/ftdc/ftdc.go:49-55, 110-143, iterator.go:123-149 | `Model/SeriesView` | iterated to its end; the registered marshaler does not panic; the order of the map is that of the last assignments |
| jsonx/juniper.go:13-95, jsonx/constructor.go:157-233, x_json_unmarshal.go:73-118, constructor.go:133-134, 187-195 | `Model/Jsonx` | the leaves of the heap are opaque; capacity of slices is not in the heap: `append` to the copy's own slice only |
| reader.go:155-198, iterator.go:54-128 | `Model/ReaderWalk` | the position after an error |
| types/objectid.go:54-61, 84-146 | `Model/ObjectIDJson` | `encoding/json` is a parameter; which error is returned |
| x/ftdc/collector_batch.go:41-47, collector_dynamic.go:42-49, collector_streaming.go:98-102, util.go FlushCollector over each collector | `Model/FtdcMetadata` | compression is a parameter |
| elements/elements.go with 64-bit positions | `Model/Elements64` | a machine with 64-bit `int` |
| `Model/ValueReader` | value.go:565-592 | `Reader` | nil receivers; slicing up to the capacity |
| `Model/ReaderLoops` | iterator.go:55-128, reader.go:88-102, reader.go:185-198, value.go:198-482 (`d == nil`, `sizeOnly`) | `sized`, `keyed`, `next`, `range`, `loops` | recovering from a panic in a loop and going on; loops inside loops over the same iterator |
| `Model/DocLoops` | document.go:145, x_document.go:19-22, x_document.go:88-90, iterator.go:138-140 | `loop`, `forEach`, `unmarshalDocument` | `irt.Slice` and `irt.Apply` (outside the repository) are taken to be plain range loops |
| `Model/BufPool` | document.go:22, document.go:305-333, reader.go:32-69, array.go:201-219, array.go:271-285, x/ftdc/collector_better.go:133-152, x/ftdc/collector_dynamic.go:80-92, x/ftdc/collector_uncompressed.go:190-210, x/ftdc/util.go:90-110 | `get`, `put`, `grow`, `bufWrite`, `readFrom`, `newFromIOReader`, `arrayMarshal`, `arrayString`, `buffer` | `adt.DefaultBufferPool` and `stw.Slice` are outside the repository: `Get` returns an empty slice of any array of the pool or of a new one, `Grow` gives the length asked for and may or may not clear. The two pools are one; concurrent calls are not modelled |
| `Model/Text` | document.go:336-351, element.go:287-294, reader.go:201-220, array.go:201-219, bsontype/bsontype.go:40-87, types/types.go:34-62, types/objectid.go:54-56 | `elemString`, `docString`, `arrString`, `readerString`, `text`, `mapText`, `typeName`, `caught` | fmt is outside the repository: its verbs `%v` and `%s` are modelled for the Go values that `Value.Interface` returns, with maps sorted by key; the texts of floats, of times, of `strconv.Quote` and of a caught panic are parameters |
| x/ftdc/collector_better.go:13-193, x/ftdc/bson_extract.go:16-121 on shared objects | `Model/FtdcShared` | documents, metadata and kept values are pointers into `Model/Graph`; documents are marshalled as trees; `Add` of anything but a document is not in it |
| x/ftdc/metrics/json.go:63-72, 94-104, 150-219 (what is in the files) | `Model/JsonFiles` | turns of the loop as a list: the select between lines, errors and the timer is in `Model/JsonStream`; `WriteFile` succeeds |
| `Model/FtdcSharedStream` | x/ftdc/collector_streaming.go:10-78, x/ftdc/collector_better.go:45-68 | `Streaming.new`, `Streaming.add`, `Streaming.flush`, `Streaming.reset`, `runStream` | on the objects of Model/FtdcShared; the writer is the `Sink` of `Model/FtdcCollectors`; the times of the chunks are a parameter |

## Properties that do not hold

For these the code was found to violate the claim. The negation is proved on a concrete witness and the
provable part is kept in a `_partial` theorem.

| id | finding | theorem |
|----|---------|---------|
| C01 | a key with a NUL byte is cut when read back | `C01_nul_key_truncated` |
| C02, C08 | the Decimal128 accessor swaps the two halves | `C08_decimal128_counterexample`, `C02_decimal_counterexample` |
| C10 | readers loop forever or panic on negative or huge lengths | `C10_*_diverges`, `C10_*_panics` |
| C11 | a length field below 4 panics | `C11_short_length_panics` |
| C11 | `DC.ReadFrom` returns a nil document, and does not panic, when a stream ends right after the length of a document: `DCE.ReadFrom` returns no document with `io.EOF`, which is taken for the end | `C11_constructors_truncated` |
| C41 | `Serialize` of a message with a document that is not valid panics instead of returning nothing | `C41_invalid_panics` |
| C17 | elements with equal keys may change order | `C17_equal_keys_reordered` |
| C18 | `IsEmpty` holds for some non-empty values | `C18_oddly_empty` |
| C19 | the cached map is stale after `Set` and others | `C19_map_stale` |
| C22 | composite element writers write a partial element before failing | `C22_composite_counterexample` |
| C23 | `EC.Int` truncates below -2^31 | `C23_int_truncates` |
| C27 | `muladd` misses overflows | `C27_overflow_missed` |
| C28 | `ParseDecimal128` accepts numbers out of range and returns another number, or a coefficient of 35 digits | `C28_overflow_accepted`, `C28_exponent_accepted`, `C28_noncanonical` |
| C30 | JSON keys are not escaped; doubles are written with six decimal places; NaN is written | `C30_key_counterexample`, `C30_precision_lost`, `C30_nan_invalid` |
| C33 | doubles come back as differences to the previous sample, timestamps multiplied, far dates wrapped | `C33_doubles_differ`, `C33_timestamps_scaled`, `C33_dates_wrap` |
| C34 | a document with other keys but the same types is taken and later restored under the old keys | `C34_key_change_accepted` |
| C37 | the dynamic collector keeps comparing with the first keys: after a change and a change back a sample is stored under the wrong keys or refused | `C37_sample_renamed`, `C37_sample_rejected` |
| C37 | the checksum of the keys does not tell all shapes apart; after the first change every document gets its own chunk; the metadata is lost at the first change | `C37_equal_fingerprints`, `C37_splits_more`, `C37_metadata_lost` |
| C38 | the key of a metric leaves out all names between the outermost document and the field, and names with dots collide | `C38_middle_lost`, `C38_dots_collide` |
| C39 | the flat view shows timestamps multiplied by 1000 as 64 bit numbers, the structured view their low 32 bits; array elements after a non-number have different indexes in the two | `C39_timestamps_differ`, `C39_array_names` |
| C40 | A query on a `$` collection is parsed as a command made up by `convertToCommand`; ids, flags, skip, limit and projection are lost; an empty query panics. | `C40_query_upconverted`, `C40_query_empty` |
| C40 | The size of a document sequence in OP_MSG counts the kind byte, unlike the protocol. The `moreToCome` argument of `NewOpMessage` has no effect. A checksum without flag bit 0 is not sent. | `C40_sequence_size`, `C40_moreToCome`, `C40_checksum_lost` |
| C42 | `ReadMessage` fails if the size is split over reads, takes bytes of the next message after a short read, and drops bytes returned together with `io.EOF`. | `C42_split_size`, `C42_overread`, `C42_not_all_segmentations`, `C42_eager` |
| C43 | When the context ends, a message can be written twice with nil returned. A writer that takes nothing keeps it running. | `C43_duplicate`, `C43_stuck` |
| C44 | `Add` on the zero registry panics; handlers registered with a payload are never reached; a reply makes the dispatch panic. | `C44_zero_value`, `C44_payload`, `C44_dispatch` |
| C51 | `Len` of a linked-list document calls itself and never returns; `Set` of an absent key does nothing, where `Document` appends | `C51_len_diverges`, `C51_set_absent` |
| C47 | a collector that sums events adds into the first event it was given: adding the same event twice doubles it, and the caller's event is changed | `C47_same_event`, `C47_reuse`, `C47_changes_events` |
| C47 | a sampling collector with rate 0 panics (division by zero) | `C47_sampling_zero` |
| C48 | the interval worker returns with the lock held when its context is done: every later call blocks forever | `C48_deadlock`, `C48_deadlock_context`, `C48_exactly` |
| C49 | the grouped recorder records only at an `EndIteration` after the interval, the raw one only if a time was set; other reports never reach the collector | `C49_grouped_lost`, `C49_raw_lost` |
| C50 | the operations counter is written as `ops` and read as `opts`, the id is skipped when reading; both are lost | `C50_lost` |
| C53 | the interval recorder drops reports between a tick and `EndTest`, and `EndIteration` counts no iteration | `C53_lost`, `C53_iteration_not_counted` |
| C46 | `getLogResponse.UnmarshalDocument` looks for `version` instead of `log`: the log is lost | `C46_log_lost` |
| C54 | the answers of the shell service have `responseTo` 0, whatever the id of the request | `C54_response_to` |
| C55 | `"\\ud800\\u0041"` is read as U+FFFD alone: the escape after an unpaired surrogate is swallowed; numbers like `2.0` are read as integers | `C55_surrogate_swallows`, `C55_integral_double` |
| C56 | `-.5`, `-e1` and a minus sign alone before white space or a bracket pass validation, and `-.5` is then read as a number | `C56_counterexample`, `C55_not_json_read` |
| C57 | the double 2 is read back as the integer 2; a key with a quote is read back as other fields | `C57_double_becomes_int`, `C57_key_counterexample` |
| C58 | a reply, insert, command or query cut between documents is accepted without them; an OP_MSG cut inside a section panics, or is accepted without the section if under 5 bytes of it are left | `C58_accepted`, `C58_msg_panics`, `C58_msg_accepted`, `C58_msg_checksum` |
| C58 | an OP_KILL_CURSORS message with a negative count panics | `C58_killCursors_panics` |
| C59 | binary data are written with the subtype as `base64` and the raw data as `subType`; the id of a pointer is written as a plain string; decimals are written with their halves exchanged | `C59_binary_wrong`, `C59_pointer_wrong`, `C59_decimal_wrong` |
| C60 | int64 values below 2^31-1 come back as int32, cut if below -2^31; 2^31-1 always comes back as int64; reading binary data panics; a nested document that begins with `$minKey` comes back as a MinKey | `C60_int64_narrowed`, `C60_int32_widened`, `C60_binary_panics`, `C60_reserved_confused`, `C60_pointer_refused` |
| C61 | `{"a":{"$oid":null}}` and the like panic; an error leaves the fields that come before it in the document; a key with `\\u0000` is cut when the document is written | `C61_panics`, `C61_error_keeps`, `C61_nul_key` |
| C62 | binary data and canonical dates in extended JSON panic, pointers are refused, `$numberInt`, `$numberLong` and `$numberDouble` become documents, members after a reserved key are dropped | `C62_binary_panics`, `C62_date_panics`, `C62_pointer_refused`, `C62_canonical_numbers`, `C62_extra_dropped`, `C62_code_empty` |
| C63 | exporting and importing loses binary data, object ids, regular expressions, pointers, code with scope and decimals (null), turns code and symbols into strings, drops earlier repeated keys | `C63_lost`, `C63_changed`, `C63_duplicates_lost`, `C63_decimal_swapped` |
| C64 | `ECE.Interface` does not report unsupported values inside slices and maps, `EC.Interface` ignores the key for an `*Element` and `ECE.Interface` makes an invalid document of it, an `*Array` becomes a document, `time.Duration` becomes null | `C64_nested_lost`, `C64_element_key_ignored`, `C64_element_corrupted`, `C64_array_becomes_document`, `C64_unsupported` |
| C65 | `DocumentMap.UnmarshalDocument` and `UnmarshalBSON` keep the last of repeated keys, `Document.Map` the first | `C65_map_disagrees` |
| C65 | `DocumentMap.Validate` does not check that the keys of the map are those of the elements, as its comment says | `C65_validate_keys_unchecked` |
| C65 | `DocumentMap.UnmarshalBSON` and `Document.UnmarshalBSON` return an error after changing their target | `C65_error_changes_map`, `C65_error_changes_document` |
| C66 | `WriteCSV` and `DumpCSV` compare only the number of metrics: after a change of names, rows stand under wrong names | `C66_names_not_compared` |
| C66 | CSV fields of doubles are the integers with their bits | `C66_fields` |
| C67 | `ConvertFromCSV`: from the first record with another number of fields on nothing is recorded, whatever its comment says | `C67_width_change` |
| C67 | `ConvertFromCSV` returns no error when its final flush fails | `C67_flush_error_lost` |
| C67 | rows with numbers in different columns can share a chunk and be read back under the wrong names | `C67_columns_mixed` |
| C68 | the streaming uncompressed collectors never flush by themselves: after `maxSamples` documents every `Add` fails, whatever the comments say | `C68_streaming_stuck` |
| C68 | the metadata is written before every batch and not only as the first document | `C68_streaming_flush_partial` |
| C68 | the dynamic uncompressed collectors write compressed chunks from the first change of the schema on | `C68_dynamic_compressed` |
| C69 | `Write` with more than one document drops all but the first and returns the full length without an error, so `io.Copy` and buffered writers lose data | `C69_rest_lost` |
| C69 | `Close` leaves the writer open if the last flush fails | `C69_close_fails` |
| C70 | after an `Add` that failed the sampling collector skips everything for another interval without an error | `C70_refused` |
| C71 | `Add` of the buffered collector may panic (send on closed channel) once its context has ended | `C71_panics` |
| C71 | `Resolve` of the buffered collector leaves out items for which `Add` returned nil | `C71_resolve_early` |
| C72 | `FlushCollector` on a synchronized collector loses samples added between its Resolve and its Reset | `C72_flush_loses` |
| C73 | binary, database pointer and code elements with bad inner lengths pass `Reader.Validate` and `ReadDocument`, and their accessors panic | `C73_accepted_panics` |
| C21 | `Value.Equal` panics on an element (string length -5) of a document that `Reader.Validate` accepts | `C21_accepted_panics` |
| C74 | `readChunks` and `readDiagnostic` close their channels before their error is pushed: `Close` called after the loop may return nil for damaged data; in `ReadMetrics`, `ReadStructuredMetrics`, `ReadMatrix` and `ReadSeries` the error may be lost for good | `C74_late`, `C74_lost` |
| C74 | leaving the loop over the chunks early may make `Close` return `context canceled` | `C74_break` |
| C75 | `GetModel` compares flags as numbers and with the wrong ones: a successful OP_REPLY is shown as CursorNotFound, CursorNotFound as QueryFailure; an OP_MSG without flags is shown with a checksum, moreToCome is missed | `C75_flags_partial`, `C75_reply_wrong`, `C75_msg_wrong` |
| C75 | `GetModel` panics for an OP_MSG with an empty body | `C75_unnamed_panics` |
| C75 | `OpMessage.HasResponse` is false for messages without flags, which have a response | `C75_response_partial` |
| C77 | the connection is closed as soon as reading ends, without waiting for the handlers: a client that sends a request and closes its sending side may get no reply | `C77_reply_lost` |
| C77 | handlers run concurrently on one connection: replies may come out of order | `C77_out_of_order` |
| C77 | a panic in a handler is not recovered and ends the process | `C77_handler_panic` |
| C77 | when the context ends during `ReadMessage`, bytes may be dropped and a handler started for a message nobody sent | `C77_cancelled` |
| C77 | `Run` notices the end of its context only between calls of `Accept`; a permanent error of `Accept` makes it loop for ever | `C77_run_waits`, `C77_run_spins` |
| C78 | `Custom.Add` accepts `[]bool`, `[]uint32`, `[]uint64` and any `uint64`, but `ECE.Interface` has no case for the slices and refuses `uint64` from 2^63 on: one such point makes `MarshalDocument` fail for the whole `Custom` | `C78_accepted_refused` |
| C78 | an `int` below -2^31 in a `Custom` is written as another number | `C78_int_truncated` |
| C78 | only int64, int32, float64, bool and times in whole milliseconds come back from a `Custom` as they were, against the comment on `CustomPoint`; `UnmarshalBSON` does not reset its receiver | `C78_kept`, `C78_unmarshal` |
| C79 | `NewHistogramGroupedRecorder` does not store its interval, so every iteration is handed on whatever the interval. Stream and grouped recorders drop what was reported before `EndTest` if no iteration was made and no time was set. The comments promise timers up to 20 minutes and counters up to 1 million; all three use 1 minute and 10 thousand, so larger values are refused and reported as errors. The tags of `PerformanceHDR` say `guages`, the document says `gauges`. | `C79_interval_ignored`, `C79_lost`, `C79_event` |
| C80 | As in the performance recorder, the worker returns with the lock held if its context is cancelled between the tick and `ctx.Err()`, so every later call blocks forever. `EndIteration` keeps `started`, so `EndTest` records one more total duration, from the last `BeginIteration` to `EndTest`. After a tick the event has no time and no ID: `EndTest` drops what was reported since, and an ID must be set again. | `C80_deadlock`, `C80_counted_twice`, `C80_lost` |
| C54 | `ResponseMessageToDocument` takes `Docs[0]` of a reply without looking whether it has documents: an empty reply panics | `C54_kinds` |
| C81 | `syncRecorder` does not defer `Unlock`: once a method of the recorder inside panics, every later call blocks forever (the synchronized collector defers it) | `C81_panic_blocks` |
| C81 | `stdShim` has `Begin` and `End` instead of `BeginIteration` and `EndIteration`, so through the `Recorder` that `NewShimRecorder` returns the timer is never started or stopped | `C81_shim` |
| C82 | `getRate` returns a zero delta when no time has passed since the last update, although `update` has already moved `previous`: what was counted in between is in no delta | `C82_lost` |
| C82 | `goStatsCache` is shared by all collectors of the process, so a collection of any kind (such as those of `CollectRuntime`) takes what was counted from the next collection of deltas or rates | `C82_taken` |
| C82 | Rates are counts divided by nanoseconds with integer division: zero below a thousand million events a second | `C82_rate_zero` |
| C83 | `generate` with `RunParallelCollectors` does not close `elems`, so the loop over it waits for ever after the last element: `CollectRuntime` hangs at the first collection | `C83_parallel_never` |
| C83 | A collector that panics in the parallel mode ends its worker; with as many panics as workers the other collectors are never run | `C83_lost` |
| C84 | `CollectRuntime` returns on an error of `generate` or `Add` without flushing: up to `SampleCount + 1` samples are lost; a sample with another number of metrics (a disk that appears) is such an error | `C84_lost`, `C84_lost_shape` |
| C84 | `CollectRuntime` never closes the last file | `C84_any` |
| C85 | `CollectJSONStream` drops everything from a line of 64 KiB on and returns nil: `Scanner.Err` is not checked | `C85_long` with `C85_all` |
| C85 | With `Follow`, what is appended after the first write event is never read: a `bufio.Scanner` that met the end does not read again | `C85_follow_lost` |
| C85 | A panic while reading a line crashes the program although there is a `recover`: the deferred `close(errs)` runs before the send of the recovering function | `C85_crash` |
| C85 | After an error in a line, or a cancellation, the samples since the last flush are lost; a cancelled context can even make a file's samples be skipped with nil returned | `C85_error_lost`, `C85_cancel_lost`, `C85_skipped` |
| C85 | The goroutine that reads from an `io.Reader` is left behind when `CollectJSONStream` returns early | `C85_leak` |
| C86 | A custom collector that returns nil makes a sample whose addition to an FTDC collector panics | `C86_collector_nil` |
| C86 | `percent[0]` (system_info.go:83) panics when `cpu.Percent` answers with an empty list and no error | `C86_system_info` |
| C86 | Disks come from a map in any order and FTDC keeps no names: the counters of disks are mixed up between samples | `C86_disks_mixed`, `C86_disks_order` |
| C86 | One `disk.Usage` error, or a disk that appears, changes the number of metrics, and the collection loses its samples | `C86_shape_exactly` with `C84_lost_shape` |
| C86 | Counters from 2^63 on are written as negative numbers; a process that is gone is a document of zeros with pid 0 | `C86_process`, `C86_process_gone` |
| C76 | `readChunks` (read.go:74-78) panics on a chunk whose "data" are not binary or have less than four bytes | `C76_damaged` |
| C87 | `Element.Copy` and `Value.Copy` share the nested document once the value was opened or constructed: adding to one adds to the copy | `C87_shared`, `C87_not_independent` |
| C87 | Marshalling a code with scope writes its length into the bytes it was read from (element.go:228, 258): after the scope was changed the caller's buffer is no longer a valid document, and copies of the element fail to marshal; concurrent marshalling of one document is a data race | `C87_marshal_overwrites`, `C87_marshal` |
| C87 | A document that is appended into itself makes marshalling overflow the stack; nothing checks for it | `C87_cycle` |
| C88 | Samples of type `map[string]int`, `map[string]int64`, `map[string]uint` and `map[string]uint64` are taken without error and recorded as empty documents, though util.go:32 names these types: `DC.Interface` has no case for them | `C88_int_maps_lost` |
| C88 | Entries of a map sample with values of types such as `time.Duration` are dropped without an error | `C88_unknown_dropped` |
| C88 | Only the outer map is sorted: maps inside a map are recorded in the random order of the visit, and the base collector compares numbers of metrics only, so values are recorded under the names of other metrics | `C88_nested_swapped` |
| C89 | Two metrics with the same key, such as the two numbers of `{a: {b: {x: 1}, c: {x: 2}}}`, have only one series, that of the last | `C89_lost` |
| C89 | `ReadSeries` calls the global marshaler, nil unless one was registered, and so panics on every file with a chunk | `C89_unregistered` |
| C90 | jsonx numbers of type int32, int64 and float32 have no conversion: `DCE.JSONX` returns an error, `EC.Interface` and `ECE.Interface` panic | `C90_other_panics` |
| C90 | The jsonx form of a timestamp made by `MarshalJSON` is refused unless it goes through text | `C90_timestamp_refused` |
| C90 | `jsonx.Document.ElementAtIndex` panics on a negative index instead of returning nil | `C90_at` |
| C90 | `jsonx.Document.Copy` shares inner documents with the original; appending to them changes both | `C90_copy_changes` |
| C84 | `NewCollectOptions` says that it collects every minute; it collects every second | `C84_default_values` |
| C91 | `Reader.Iterator` accepts a negative length, which `ElementAt` refuses; a loop over it panics if no zero byte follows the elements | `C91_negative` |
| C91 | Loops over one `Reader.Iterator()` share the position: a second loop sees nothing, unlike the usual `iter.Seq2` | `C91_loops` |
| C53 | An ID set on the interval recorder is in the event of the first tick only | `C53_id` |
| C92 | `ObjectID.UnmarshalJSON` takes any 12 bytes for a raw id, also JSON such as `{"$oid":"a"}` or `"0123456789"`, which should be refused | `C92_twelve` |
| C92 | `ObjectID.UnmarshalJSON` overwrites part of the id before it reports a digit that is not hexadecimal | `C92_error_changes` |
| C93 | `Reset` of batch and dynamic collectors, and so `FlushCollector`, drops the metadata that `Reset` of the base and streaming collectors keeps | `C93_flush_removes` |
| C93 | A streaming dynamic collector writes its metadata with the first chunk only when it is flushed or the schema changes: the flush makes a new collector without them | `C93_streaming_dynamic_removes` |
| C94 | The size checks of `elements` convert the position to `int`: from 2^63 minus the size on, the encoders panic instead of returning `ErrTooSmall` | `C94_not_too_small`, `C94_byte_panics` |
| C95 | Keys are not checked for NUL: the key is cut there and its remaining bytes are written where the value belongs, so a key can bring further fields into the document | `C95_key_becomes_value`, `C95_fields_from_key`, `C95_not_as_given` |
| C95 | A NUL in a regular expression's pattern makes the rest of the pattern its options; the options given are lost | `C95_regex_options_lost` |
| C96 | `ReaderArray` of an array from the constructors is a document with empty keys, in which no position is found | `C96_constructed` |
| C96 | After `Delete` on an array that was read, its reader has the remaining values under their old positions | `C96_deleted` |
| C96 | `Reader` is said to work for every type, but takes the first four bytes for a length: strings lose four bytes, other values panic or give bytes of their neighbours | `C96_unopened`, `C96_texts`, `C96_panics` |
| C97 | `Reader.Iterator`: a second loop after an error goes on behind it and can read the payload of a value as elements | `C97_boolean`, `C97_binary` |
| C97 | `Reader.Iterator`: the old error is yielded even after the body has left the loop, which is a runtime panic | `C97_left`, `C97_left_panics` |
| C98 | `for e := range d.Iterator() { d.Delete(e.Key()) }` leaves every other element | `C98_delete_all`, `C98_delete` |
| C98 | `Reset` in a loop over the document makes the remaining turns get nil elements | `C98_reset` |
| C99 | `Array.MarshalBSON` with the value of an element whose key contains a NUL returns bytes left in a pooled buffer by an earlier call | `C99_stale`, `C99_not_clean` |
| C100 | `Document.String` panics on documents that `ReadDocument` has read | `C100_panics` |
| C100 | `Reader.String` ignores errors: bytes that are cut off print as an empty document | `C100_cut`, `C100_unknown_partial` |
| C100 | keys are printed without escapes, so that one element looks like two | `C100_forged` |
| C100 | `Array.String` prints numbers, booleans and null with `%s`: `%!s(int32=5)` | `C100_array_numbers` |
| C101 | a chunk's number of samples is not bounded by its size: 19 bytes give 4294967296 samples of every metric, and the slices are allocated before any difference is read (x/ftdc/read.go:117) | `C101_bomb` |
| C101 | a run of zeros that is longer than what is left, and bytes after the last difference, are accepted | `C101_same`, `C101_trailing` |
| C101 | a file cut right after the length of a document ends without an error | `C101_file_cut` |
| C102 | an embedded document may end before the length it declares; marshalling cuts it there and keeps the declared length: a validated document becomes bytes that `ReadDocument` refuses (value.go:260-269, element.go:263-265) | `C102_truncates` |
| C102 | `Reader.Validate` returns less than the declared length when bytes follow the final zero, and does not report it | `C102_slack` |
| C102 | strings without a final NUL pass `Reader.Validate` and `ReadDocument` and make marshalling fail | `C102_unterminated` |
| C103 | events with a time outside of 1677 to 2262 (also the zero time) are written without an error and read with another time (1754 for the zero time) | `C103_times_change` |
| C104 | the collector keeps the caller's first document, metadata and int64/double values: reusing a document for the next sample changes what is written of the samples before, without an error | `C104_reuse`, `C104_in_place`, `C104_only_then` |
| C105 | a JSON integer is an int32 below 2^31-1 and an int64 from there; the dynamic collector's checksum covers only the keys, so the change is refused and `CollectJSONStream` ends with an error, without writing the samples since the last flush | `C105_counter`, `C105_type_change` |
| C105 | the same happens when a number has a fraction for the first time | `C105_fraction` |
| C105 | JSON integers below -2^31 are cut to 32 bits before they are collected | `C105_cut` |
| C105 | lines of two kinds that alternate: values are written under the keys of the other kind | `C105_renamed` |
| C104 | the collector reads the values of the sample before from the caller's document: if one has another type by then, the next `Add` panics | `C104_type_panics` |
| C106 | a JSON key with an escaped NUL brings other fields into the marshalled BSON document: a check of the fields of the JSON object does not see them | `C106_injected`, `C106_not_always` |
| C106 | a NUL in the pattern of a JSON regular expression replaces its options | `C106_options` |
| C107 | an array under a key with a NUL: `Array.writeByteSlice` indexes behind the buffer and MarshalBSON panics; a JSON text as short as `{"a\u0000bbbb":[null]}` leads to it | `C107_array_panics`, `C107_json_panics` |
| C107 | documents and code with scope under keys with a NUL: MarshalBSON returns `errTooSmall` | `C107_outcome`, `C107_no_panic_partial` |
| C108 | a document used again for every sample, with a streaming collector that writes a chunk for each: the file lacks the first sample and has the last one twice | `C108_reuse` |
| C109 | the CSV of a file with doubles has, from the second sample on, the bits of differences; timestamps are multiplied by 1000 | `C109_doubles`, `C109_timestamps`, `C109_dates` |

## Trusted base

* Lean 4.33.0 kernel; axioms allowed: `propext`, `Classical.choice`, `Quot.sound`.
* The correspondence between the Lean definitions and the Go text, documented by the
  file/line comment on each definition.
* Behaviour of the Go standard library and of `github.com/tychoish/fun`
  (`adt.DefaultBufferPool` yields buffers of length 0, `stw.Slice.Grow(n)` gives a
  slice of length n; that it is zeroed is used by all models but `Model/BufPool`, which
  drops it and, for reading and for arrays of proper values, proves it to make no difference (C99); `irt.*` iterate in order, `erc.Must` panics on error).
* zlib is assumed lossless.
* fmt, strconv.Quote and the texts of floats and times: `Model/Text` models `%v` and `%s` for the Go
  values of `Value.Interface`, from the documentation of fmt; the rest are parameters (C100).
