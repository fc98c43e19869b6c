import Verif.Check.Columns
import Verif.Check.Encodings
import Verif.Check.Files
import Verif.Check.Streams
import Verif.Go.Basic
import Verif.Go.Dec
import Verif.Model.Chunk
import Verif.Model.Close
import Verif.Model.ColKinds
import Verif.Model.ColNested
import Verif.Model.ColReader
import Verif.Model.ColTable
import Verif.Model.ColWriter
import Verif.Model.DecimalFloat
import Verif.Model.Disk
import Verif.Model.EncBool
import Verif.Model.EncByte
import Verif.Model.EncInt
import Verif.Model.EncPackage
import Verif.Model.EncScalar
import Verif.Model.Encoder
import Verif.Model.FailedWrite
import Verif.Model.File
import Verif.Model.FileReader
import Verif.Model.ReadChunks
import Verif.Model.ReadVUint
import Verif.Model.Schedule
import Verif.Model.Schema
import Verif.Model.SliceMem
import Verif.Model.StreamReader
import Verif.Model.StreamTyped
import Verif.Model.StreamWriter
import Verif.Model.StripeWriter
import Verif.Model.Time
import Verif.Proofs.AbsentColumn
import Verif.Proofs.Batches
import Verif.Proofs.BitIO
import Verif.Proofs.BitIO2
import Verif.Proofs.CallSize
import Verif.Proofs.Choice
import Verif.Proofs.ChoiceRead
import Verif.Proofs.Chunk
import Verif.Proofs.Close
import Verif.Proofs.CloseReturns
import Verif.Proofs.ColData
import Verif.Proofs.ColIndex
import Verif.Proofs.ColLeaf
import Verif.Proofs.ColMore
import Verif.Proofs.ColOdd
import Verif.Proofs.ColRead
import Verif.Proofs.ColSeek
import Verif.Proofs.ColSeekKinds
import Verif.Proofs.ColStats
import Verif.Proofs.ColWrite
import Verif.Proofs.Collections
import Verif.Proofs.Copy
import Verif.Proofs.Damage
import Verif.Proofs.Dec
import Verif.Proofs.DecodeSize
import Verif.Proofs.DeepSeek
import Verif.Proofs.Delivered
import Verif.Proofs.DeliveredFile
import Verif.Proofs.Disk
import Verif.Proofs.EncBool
import Verif.Proofs.EncByte
import Verif.Proofs.EncPackage
import Verif.Proofs.EncScalar
import Verif.Proofs.Files
import Verif.Proofs.Foreign
import Verif.Proofs.ForeignFile
import Verif.Proofs.ForeignSeek
import Verif.Proofs.IntAccept
import Verif.Proofs.IntBlocks
import Verif.Proofs.IntChunks
import Verif.Proofs.IntDelta
import Verif.Proofs.IntFormat
import Verif.Proofs.IntHistory
import Verif.Proofs.IntMono
import Verif.Proofs.IntPatch
import Verif.Proofs.IntRun
import Verif.Proofs.IntSize
import Verif.Proofs.IntTry
import Verif.Proofs.Locality
import Verif.Proofs.LocalityOpen
import Verif.Proofs.LocalityRead
import Verif.Proofs.LocalityTree
import Verif.Proofs.Nested
import Verif.Proofs.Open
import Verif.Proofs.Parallel
import Verif.Proofs.ParallelFile
import Verif.Proofs.ParallelOpen
import Verif.Proofs.ParallelRead
import Verif.Proofs.ParallelTree
import Verif.Proofs.Projection
import Verif.Proofs.ReadAny
import Verif.Proofs.ReadChunks
import Verif.Proofs.ReadVUint
import Verif.Proofs.Robust
import Verif.Proofs.Rows
import Verif.Proofs.SchemaTree
import Verif.Proofs.Schemas
import Verif.Proofs.SeekFile
import Verif.Proofs.Skip
import Verif.Proofs.StreamKinds
import Verif.Proofs.StreamReader
import Verif.Proofs.StreamTyped
import Verif.Proofs.StreamWriter
import Verif.Proofs.StructNulls
import Verif.Proofs.StructStripe
import Verif.Proofs.Total
import Verif.Proofs.Trace
import Verif.Proofs.Trees
import Verif.Proofs.Trips
import Verif.Proofs.Widths
import Verif.Proofs.WriteLocal
import Verif.Props.AbsentColumn
import Verif.Props.Accept
import Verif.Props.BatchShape
import Verif.Props.Batches
import Verif.Props.Batching
import Verif.Props.BoolSize
import Verif.Props.CallSize
import Verif.Props.Choice
import Verif.Props.Chunk
import Verif.Props.ChunkSize
import Verif.Props.Close
import Verif.Props.CloseWritten
import Verif.Props.ColTable
import Verif.Props.Collections
import Verif.Props.Column
import Verif.Props.ColumnIndex
import Verif.Props.ColumnOdd
import Verif.Props.ColumnStats
import Verif.Props.ColumnTypes
import Verif.Props.Compact
import Verif.Props.Copy
import Verif.Props.Crash
import Verif.Props.CutStream
import Verif.Props.Damage
import Verif.Props.DayOf
import Verif.Props.DecimalFloat
import Verif.Props.DecodeSize
import Verif.Props.DeepSeek
import Verif.Props.Delivered
import Verif.Props.DictSeek
import Verif.Props.Dictionary
import Verif.Props.Disk
import Verif.Props.EncBool
import Verif.Props.EncByte
import Verif.Props.EncInt
import Verif.Props.EncIntBlocks
import Verif.Props.EncIntDec
import Verif.Props.EncIntSmall
import Verif.Props.EncPackage
import Verif.Props.EncScalar
import Verif.Props.FailedWrite
import Verif.Props.File
import Verif.Props.FileIndex
import Verif.Props.FileLayout
import Verif.Props.FileStats
import Verif.Props.FileTail
import Verif.Props.FloatCopy
import Verif.Props.Foreign
import Verif.Props.ForeignFile
import Verif.Props.ForeignSeek
import Verif.Props.Instances
import Verif.Props.IntRun
import Verif.Props.IntSize
import Verif.Props.LayoutUnique
import Verif.Props.Locality
import Verif.Props.Magic
import Verif.Props.MapSkip
import Verif.Props.Nested
import Verif.Props.OpenAny
import Verif.Props.Parallel
import Verif.Props.Projection
import Verif.Props.Proto
import Verif.Props.ReadAny
import Verif.Props.ReadChunks
import Verif.Props.ReadVUint
import Verif.Props.Robust
import Verif.Props.RoundTrip
import Verif.Props.RowIndex
import Verif.Props.Schedule
import Verif.Props.Schema
import Verif.Props.Seek
import Verif.Props.SeekCol
import Verif.Props.SeekFile
import Verif.Props.Skip
import Verif.Props.SliceMem
import Verif.Props.Sparse
import Verif.Props.Stream
import Verif.Props.StreamAll
import Verif.Props.StreamSeek
import Verif.Props.StripeStreams
import Verif.Props.StructColumn
import Verif.Props.StructNulls
import Verif.Props.Time
import Verif.Props.Total
import Verif.Props.Tour
import Verif.Props.Trees
import Verif.Props.VarintShort
import Verif.Props.WriteLocal
import Verif.Spec.Accept
import Verif.Spec.BatchShape
import Verif.Spec.Batches
import Verif.Spec.BitStream
import Verif.Spec.Bits
import Verif.Spec.Bytes
import Verif.Spec.Chunks
import Verif.Spec.Close
import Verif.Spec.ColHistory
import Verif.Spec.Collections
import Verif.Spec.Columns
import Verif.Spec.Copy
import Verif.Spec.Crash
import Verif.Spec.Damage
import Verif.Spec.DecimalFloat
import Verif.Spec.DeepSeek
import Verif.Spec.Delivered
import Verif.Spec.Disk
import Verif.Spec.Files
import Verif.Spec.Foreign
import Verif.Spec.ForeignFile
import Verif.Spec.ForeignSeek
import Verif.Spec.GoTypes
import Verif.Spec.IntSafe
import Verif.Spec.Locality
import Verif.Spec.Nested
import Verif.Spec.OpenAny
import Verif.Spec.Parallel
import Verif.Spec.Projection
import Verif.Spec.ReadAny
import Verif.Spec.ReadChunks
import Verif.Spec.ReadVUint
import Verif.Spec.Rlev2
import Verif.Spec.Robust
import Verif.Spec.RowGroups
import Verif.Spec.Rows
import Verif.Spec.Schedule
import Verif.Spec.Schemas
import Verif.Spec.SeekCol
import Verif.Spec.SeekFile
import Verif.Spec.Skip
import Verif.Spec.Sparse
import Verif.Spec.Streams
import Verif.Spec.StructCol
import Verif.Spec.Tables
import Verif.Spec.Tour
import Verif.Spec.Trees
import Verif.Spec.Widths
import Verif.Spec.WriteLocal
