import Verif.Base
import Verif.Spec.Accept
import Verif.Spec.Ascii
import Verif.Spec.BadArgs
import Verif.Spec.Bson
import Verif.Spec.BufPool
import Verif.Spec.Collect
import Verif.Spec.Concurrent
import Verif.Spec.Csv
import Verif.Spec.CsvRows
import Verif.Spec.Custom
import Verif.Spec.Decimal
import Verif.Spec.DecimalText
import Verif.Spec.Decimals
import Verif.Spec.DocLoops
import Verif.Spec.DocMap
import Verif.Spec.DocView
import Verif.Spec.Docs
import Verif.Spec.EventFile
import Verif.Spec.Events
import Verif.Spec.ExtJson
import Verif.Spec.FtdcDamage
import Verif.Spec.FtdcDocs
import Verif.Spec.FtdcLayout
import Verif.Spec.FtdcMetadata
import Verif.Spec.FtdcSeries
import Verif.Spec.FtdcShared
import Verif.Spec.FtdcSharedStream
import Verif.Spec.FtdcViews
import Verif.Spec.GoStats
import Verif.Spec.GoValue
import Verif.Spec.Graph
import Verif.Spec.Histograms
import Verif.Spec.Interval
import Verif.Spec.IntervalHist
import Verif.Spec.Ints
import Verif.Spec.Json
import Verif.Spec.JsonFiles
import Verif.Spec.JsonStream
import Verif.Spec.JsonText
import Verif.Spec.JsonValue
import Verif.Spec.Jsonx
import Verif.Spec.Keyed
import Verif.Spec.Metrics
import Verif.Spec.NulKeys
import Verif.Spec.ObjectID
import Verif.Spec.ObjectIDJson
import Verif.Spec.Order
import Verif.Spec.Path
import Verif.Spec.Pool
import Verif.Spec.ReadAccess
import Verif.Spec.ReadPipe
import Verif.Spec.ReaderLoops
import Verif.Spec.ReaderWalk
import Verif.Spec.Recorders
import Verif.Spec.Registry
import Verif.Spec.Rep
import Verif.Spec.Sampled
import Verif.Spec.Samples
import Verif.Spec.SeriesView
import Verif.Spec.Service
import Verif.Spec.Shell
import Verif.Spec.SyncRecorder
import Verif.Spec.Tame
import Verif.Spec.Text
import Verif.Spec.Uncompressed
import Verif.Spec.Wire
import Verif.Spec.WireModel
import Verif.Spec.WireSock
import Verif.Spec.Zero
import Verif.Model.Access
import Verif.Model.BList
import Verif.Model.BufPool
import Verif.Model.Buffered
import Verif.Model.Collect
import Verif.Model.Compare
import Verif.Model.Constructors
import Verif.Model.Custom
import Verif.Model.Decimal
import Verif.Model.DocHeap
import Verif.Model.DocLoops
import Verif.Model.DocMap
import Verif.Model.Elements
import Verif.Model.Elements64
import Verif.Model.Events
import Verif.Model.ExtJson
import Verif.Model.Ftdc
import Verif.Model.FtdcCollectors
import Verif.Model.FtdcCsv
import Verif.Model.FtdcMetadata
import Verif.Model.FtdcShared
import Verif.Model.FtdcSharedStream
import Verif.Model.FtdcUncompressed
import Verif.Model.FtdcWriter
import Verif.Model.Gjson
import Verif.Model.GoStats
import Verif.Model.GoValue
import Verif.Model.Graph
import Verif.Model.Histograms
import Verif.Model.Interval
import Verif.Model.IntervalHist
import Verif.Model.Ints
import Verif.Model.Json
import Verif.Model.JsonFiles
import Verif.Model.JsonStream
import Verif.Model.Jsonx
import Verif.Model.Metrics
import Verif.Model.ObjectID
import Verif.Model.ObjectIDJson
import Verif.Model.Pool
import Verif.Model.Programs
import Verif.Model.ReadPipe
import Verif.Model.ReaderLoops
import Verif.Model.ReaderWalk
import Verif.Model.Recorders
import Verif.Model.Registry
import Verif.Model.Samples
import Verif.Model.Search
import Verif.Model.SeriesView
import Verif.Model.Service
import Verif.Model.Shell
import Verif.Model.Stream
import Verif.Model.SyncRecorder
import Verif.Model.Synchronized
import Verif.Model.Text
import Verif.Model.Value
import Verif.Model.ValueReader
import Verif.Model.Wire
import Verif.Model.WireModel
import Verif.Model.WireSock
import Verif.Model.Write
import Verif.Proofs.Accept
import Verif.Proofs.AcceptCanon
import Verif.Proofs.AcceptCopy
import Verif.Proofs.AcceptUnique
import Verif.Proofs.Access
import Verif.Proofs.BList
import Verif.Proofs.BadArgs
import Verif.Proofs.BadArgsExact
import Verif.Proofs.Basic
import Verif.Proofs.BufPool
import Verif.Proofs.Buffered
import Verif.Proofs.Collect
import Verif.Proofs.Compare
import Verif.Proofs.Construct
import Verif.Proofs.CsvRows
import Verif.Proofs.Custom
import Verif.Proofs.Decimal
import Verif.Proofs.DecimalExact
import Verif.Proofs.DecimalParse
import Verif.Proofs.DecimalPrint
import Verif.Proofs.DecimalRange
import Verif.Proofs.Decode
import Verif.Proofs.DocHeap
import Verif.Proofs.DocLoops
import Verif.Proofs.DocMap
import Verif.Proofs.DocView
import Verif.Proofs.Elements64
import Verif.Proofs.Encoders
import Verif.Proofs.EventFile
import Verif.Proofs.Events
import Verif.Proofs.ExtJson
import Verif.Proofs.ExtJsonSafe
import Verif.Proofs.Frame
import Verif.Proofs.FtdcBack
import Verif.Proofs.FtdcBatches
import Verif.Proofs.FtdcChunk
import Verif.Proofs.FtdcCodec
import Verif.Proofs.FtdcCollect
import Verif.Proofs.FtdcCsv
import Verif.Proofs.FtdcDamage
import Verif.Proofs.FtdcDynamic
import Verif.Proofs.FtdcFiles
import Verif.Proofs.FtdcHash
import Verif.Proofs.FtdcHistory
import Verif.Proofs.FtdcKeys
import Verif.Proofs.FtdcKinds
import Verif.Proofs.FtdcLayout
import Verif.Proofs.FtdcMetadata
import Verif.Proofs.FtdcMoved
import Verif.Proofs.FtdcParts
import Verif.Proofs.FtdcRuns
import Verif.Proofs.FtdcShared
import Verif.Proofs.FtdcSharedStream
import Verif.Proofs.FtdcStream
import Verif.Proofs.FtdcTree
import Verif.Proofs.FtdcUncompressed
import Verif.Proofs.FtdcViews
import Verif.Proofs.FtdcWriter
import Verif.Proofs.Fuel
import Verif.Proofs.GjsonParts
import Verif.Proofs.GjsonRead
import Verif.Proofs.GjsonScan
import Verif.Proofs.GjsonValid
import Verif.Proofs.GjsonWrite
import Verif.Proofs.GoStats
import Verif.Proofs.GoValue
import Verif.Proofs.Graph
import Verif.Proofs.GraphOpen
import Verif.Proofs.Histograms
import Verif.Proofs.Interval
import Verif.Proofs.IntervalHist
import Verif.Proofs.IntervalWorkers
import Verif.Proofs.Json
import Verif.Proofs.JsonFiles
import Verif.Proofs.JsonStream
import Verif.Proofs.Jsonx
import Verif.Proofs.Malformed
import Verif.Proofs.MarshalFuel
import Verif.Proofs.Metrics
import Verif.Proofs.NulKeys
import Verif.Proofs.ObjectID
import Verif.Proofs.ObjectIDJson
import Verif.Proofs.Order
import Verif.Proofs.Pool
import Verif.Proofs.ReadAccess
import Verif.Proofs.ReadPipe
import Verif.Proofs.Reader
import Verif.Proofs.ReaderLoops
import Verif.Proofs.ReaderSearch
import Verif.Proofs.ReaderWalk
import Verif.Proofs.Readers
import Verif.Proofs.Recorders
import Verif.Proofs.Registry
import Verif.Proofs.Rep
import Verif.Proofs.Returns
import Verif.Proofs.Samples
import Verif.Proofs.Search
import Verif.Proofs.SeriesView
import Verif.Proofs.Service
import Verif.Proofs.Shell
import Verif.Proofs.Size
import Verif.Proofs.Sorting
import Verif.Proofs.Stream
import Verif.Proofs.SyncRecorder
import Verif.Proofs.Synchronized
import Verif.Proofs.Text
import Verif.Proofs.Totality
import Verif.Proofs.Totals
import Verif.Proofs.Validated
import Verif.Proofs.ValueReader
import Verif.Proofs.Wire
import Verif.Proofs.WireParse
import Verif.Proofs.WireSize
import Verif.Proofs.WireSock
import Verif.Proofs.WireTrunc
import Verif.Proofs.Write
import Verif.Props.Accept
import Verif.Props.BList
import Verif.Props.BadArgs
import Verif.Props.Bson
import Verif.Props.BufPool
import Verif.Props.Collect
import Verif.Props.Concurrent
import Verif.Props.CsvRows
import Verif.Props.Custom
import Verif.Props.DecimalText
import Verif.Props.Decimals
import Verif.Props.DocLoops
import Verif.Props.DocMaps
import Verif.Props.Documents
import Verif.Props.Elements64
import Verif.Props.Encoders
import Verif.Props.EventFile
import Verif.Props.Events
import Verif.Props.ExtJson
import Verif.Props.ExtJsonRead
import Verif.Props.ExtJsonSafe
import Verif.Props.FtdcChunks
import Verif.Props.FtdcCodec
import Verif.Props.FtdcCollect
import Verif.Props.FtdcCsv
import Verif.Props.FtdcDamage
import Verif.Props.FtdcDynamic
import Verif.Props.FtdcFiles
import Verif.Props.FtdcLayout
import Verif.Props.FtdcMetadata
import Verif.Props.FtdcShared
import Verif.Props.FtdcSharedStream
import Verif.Props.FtdcUncompressed
import Verif.Props.FtdcViews
import Verif.Props.FtdcWriter
import Verif.Props.GoStats
import Verif.Props.GoValues
import Verif.Props.Graph
import Verif.Props.Histograms
import Verif.Props.Interval
import Verif.Props.IntervalHist
import Verif.Props.Json
import Verif.Props.JsonBson
import Verif.Props.JsonFiles
import Verif.Props.JsonRead
import Verif.Props.JsonStream
import Verif.Props.Jsonx
import Verif.Props.Malformed
import Verif.Props.Metrics
import Verif.Props.NulKeys
import Verif.Props.ObjectIDJson
import Verif.Props.ObjectIDs
import Verif.Props.Pool
import Verif.Props.ReadAccess
import Verif.Props.ReadPipe
import Verif.Props.ReaderLoops
import Verif.Props.ReaderWalk
import Verif.Props.Recorders
import Verif.Props.Registry
import Verif.Props.Samples
import Verif.Props.Scalars
import Verif.Props.Search
import Verif.Props.SeriesView
import Verif.Props.Service
import Verif.Props.Shell
import Verif.Props.Sorting
import Verif.Props.Streams
import Verif.Props.SyncRecorder
import Verif.Props.Text
import Verif.Props.Totality
import Verif.Props.ValueReader
import Verif.Props.Values
import Verif.Props.Wire
import Verif.Props.WireModel
import Verif.Props.WireSock
import Verif.Props.WireTrunc
