import Verif.Model.Accessor
import Verif.Model.AddOverloads
import Verif.Model.Attachments
import Verif.Model.AxisInfo
import Verif.Model.Bitonal
import Verif.Model.Blit
import Verif.Model.ByteOrder
import Verif.Model.CApi
import Verif.Model.CApiCompose
import Verif.Model.CApiData
import Verif.Model.CApiHandles
import Verif.Model.CApiView
import Verif.Model.Cache
import Verif.Model.CachedTiles
import Verif.Model.ChannelText
import Verif.Model.Chunk
import Verif.Model.Close
import Verif.Model.CmdCheck
import Verif.Model.CmdLine
import Verif.Model.CmdMain
import Verif.Model.CmdNumbers
import Verif.Model.Commands
import Verif.Model.Composite
import Verif.Model.CompressOptions
import Verif.Model.Convert
import Verif.Model.Coord
import Verif.Model.CreateCzi
import Verif.Model.DateTime
import Verif.Model.Decimate
import Verif.Model.Disk
import Verif.Model.Display
import Verif.Model.DisplayHelper
import Verif.Model.DocInfo
import Verif.Model.EditFault
import Verif.Model.EditTrace
import Verif.Model.Enum
import Verif.Model.ExternalOut
import Verif.Model.Extract
import Verif.Model.FileOut
import Verif.Model.Fill
import Verif.Model.Float
import Verif.Model.JsonOptions
import Verif.Model.JsonText
import Verif.Model.Jxr
import Verif.Model.LayerView
import Verif.Model.Layers
import Verif.Model.LoHi
import Verif.Model.Locking
import Verif.Model.Lookup
import Verif.Model.Lut
import Verif.Model.Machine
import Verif.Model.Md5
import Verif.Model.Mem
import Verif.Model.MemStream
import Verif.Model.MultiChannel
import Verif.Model.NumText
import Verif.Model.Owned
import Verif.Model.Parse
import Verif.Model.PlaneScan
import Verif.Model.Prepared
import Verif.Model.ReaderSession
import Verif.Model.ReaderWriter
import Verif.Model.Rect
import Verif.Model.Scale
import Verif.Model.ScaledView
import Verif.Model.Scaling
import Verif.Model.ScalingAccessor
import Verif.Model.Site
import Verif.Model.Sized
import Verif.Model.Spline
import Verif.Model.Streams
import Verif.Model.Structs
import Verif.Model.SubBlock
import Verif.Model.SubBlockMeta
import Verif.Model.Text
import Verif.Model.Viewer
import Verif.Model.Writer
import Verif.Model.Xml
import Verif.Model.XmlText
import Verif.Model.Zstd
import Verif.Proof.AddOverloads
import Verif.Proof.AxisInfo
import Verif.Proof.Bitonal
import Verif.Proof.Blit
import Verif.Proof.BltNum
import Verif.Proof.Bounds
import Verif.Proof.ByteOrder
import Verif.Proof.CApi
import Verif.Proof.CApiCompose
import Verif.Proof.CApiData
import Verif.Proof.CApiGuid
import Verif.Proof.CApiHandles
import Verif.Proof.CApiRun
import Verif.Proof.CApiSteps
import Verif.Proof.Cache
import Verif.Proof.Chain
import Verif.Proof.Change
import Verif.Proof.ChangeList
import Verif.Proof.ChannelText
import Verif.Proof.CmdLine
import Verif.Proof.CmdNumbers
import Verif.Proof.Codec
import Verif.Proof.Compose
import Verif.Proof.CompressOptions
import Verif.Proof.Coord
import Verif.Proof.Crash
import Verif.Proof.Crash2
import Verif.Proof.CreateCzi
import Verif.Proof.CreateCzi2
import Verif.Proof.CreateCzi3
import Verif.Proof.DateTime
import Verif.Proof.Decimate
import Verif.Proof.Disk
import Verif.Proof.DisplayChannel
import Verif.Proof.DisplayDoc
import Verif.Proof.DisplayFields
import Verif.Proof.DisplayForeign
import Verif.Proof.DisplayHelper
import Verif.Proof.DisplayMore
import Verif.Proof.DisplayRead
import Verif.Proof.DocAtt
import Verif.Proof.DocInfo
import Verif.Proof.DocMore
import Verif.Proof.Document
import Verif.Proof.EditBreak
import Verif.Proof.EditClean
import Verif.Proof.EditClose
import Verif.Proof.EditCrash
import Verif.Proof.EditCrashClose
import Verif.Proof.EditCrashDoc
import Verif.Proof.EditCrashMore
import Verif.Proof.EditCreate
import Verif.Proof.EditDone
import Verif.Proof.EditFault
import Verif.Proof.EditFaultHarm
import Verif.Proof.EditFaultMore
import Verif.Proof.EditHeap
import Verif.Proof.EditLog
import Verif.Proof.EditOpen
import Verif.Proof.EditOps
import Verif.Proof.EditRun
import Verif.Proof.EditTrace
import Verif.Proof.EditWritten
import Verif.Proof.Entries
import Verif.Proof.Enum
import Verif.Proof.FailedAdd
import Verif.Proof.FileOut
import Verif.Proof.Fill
import Verif.Proof.Float
import Verif.Proof.HexText
import Verif.Proof.IndexSet
import Verif.Proof.JsonMore
import Verif.Proof.JsonOptions
import Verif.Proof.JsonText
import Verif.Proof.Jxr
import Verif.Proof.LayerView
import Verif.Proof.Layers
import Verif.Proof.LoHi
import Verif.Proof.Lookup
import Verif.Proof.Low
import Verif.Proof.Lut
import Verif.Proof.LutToe
import Verif.Proof.Machine
import Verif.Proof.MachineCover
import Verif.Proof.MachineOverflow
import Verif.Proof.MachineTiles
import Verif.Proof.Md5
import Verif.Proof.MultiChannel
import Verif.Proof.MultiMean
import Verif.Proof.MultiWeights
import Verif.Proof.NumConv
import Verif.Proof.NumRound
import Verif.Proof.NumScan
import Verif.Proof.NumShow
import Verif.Proof.Owned
import Verif.Proof.OwnedRead
import Verif.Proof.OwnedStep
import Verif.Proof.OwnedWorld
import Verif.Proof.Parsing
import Verif.Proof.Prepared
import Verif.Proof.ReadBack
import Verif.Proof.ReaderSession
import Verif.Proof.Rect
import Verif.Proof.Scale
import Verif.Proof.ScaleNum
import Verif.Proof.ScaledView
import Verif.Proof.ScalingInfo
import Verif.Proof.ScalingOrder
import Verif.Proof.ScalingPaint
import Verif.Proof.Segments
import Verif.Proof.Short
import Verif.Proof.Site
import Verif.Proof.Sized
import Verif.Proof.Spline
import Verif.Proof.SplineTable
import Verif.Proof.Stats
import Verif.Proof.Streams
import Verif.Proof.SubBlock
import Verif.Proof.SubBlockMeta
import Verif.Proof.Text
import Verif.Proof.UnscaledView
import Verif.Proof.Viewer
import Verif.Proof.WriteFault
import Verif.Proof.WriteFault2
import Verif.Proof.WriterClose
import Verif.Proof.WriterInv
import Verif.Proof.WriterInv2
import Verif.Proof.Xml
import Verif.Proof.XmlBroken
import Verif.Proof.XmlBuilt
import Verif.Proof.XmlChars
import Verif.Proof.XmlGrammar
import Verif.Proof.XmlLoaded
import Verif.Proof.XmlParse
import Verif.Proof.XmlPrefix
import Verif.Proof.XmlText
import Verif.Proof.XmlValue
import Verif.Proof.Zeroes
import Verif.Proof.Zstd
import Verif.Props.Accessor
import Verif.Props.AddOverloads
import Verif.Props.Arguments
import Verif.Props.Attachments
import Verif.Props.AxisInfo
import Verif.Props.Bitonal
import Verif.Props.Bounds
import Verif.Props.ByteOrder
import Verif.Props.CApi
import Verif.Props.CApiCompose
import Verif.Props.CApiData
import Verif.Props.CApiHandles
import Verif.Props.CApiView
import Verif.Props.Cache
import Verif.Props.CachedTiles
import Verif.Props.CachedTilesMask
import Verif.Props.ChannelText
import Verif.Props.Chunk
import Verif.Props.Close
import Verif.Props.CmdCheck
import Verif.Props.CmdLine
import Verif.Props.CmdMain
import Verif.Props.CmdNumbers
import Verif.Props.Codecs
import Verif.Props.Colour
import Verif.Props.Commands
import Verif.Props.Compose
import Verif.Props.ComposeMore
import Verif.Props.Composite
import Verif.Props.CompressOptions
import Verif.Props.Convert
import Verif.Props.Coord
import Verif.Props.CoordMore
import Verif.Props.Crash
import Verif.Props.CreateCzi
import Verif.Props.DateTime
import Verif.Props.Decimate
import Verif.Props.Display
import Verif.Props.DisplayForeign
import Verif.Props.DisplayHelper
import Verif.Props.DocInfo
import Verif.Props.Document
import Verif.Props.EditCrash
import Verif.Props.EditFault
import Verif.Props.EditedView
import Verif.Props.ExternalOut
import Verif.Props.Extract
import Verif.Props.FileOut
import Verif.Props.Fill
import Verif.Props.IndexSet
import Verif.Props.JsonOptions
import Verif.Props.JsonText
import Verif.Props.Jxr
import Verif.Props.KeyValue
import Verif.Props.LayerView
import Verif.Props.Layers
import Verif.Props.Locking
import Verif.Props.Lookup
import Verif.Props.LookupFrames
import Verif.Props.Lut
import Verif.Props.Machine
import Verif.Props.MaskBitmap
import Verif.Props.Md5
import Verif.Props.MemStream
import Verif.Props.Mismatch
import Verif.Props.MultiChannel
import Verif.Props.NumSpecial
import Verif.Props.NumText
import Verif.Props.Owned
import Verif.Props.ParseSafe
import Verif.Props.PixelSize
import Verif.Props.PlaneScan
import Verif.Props.Prepared
import Verif.Props.Pyramid
import Verif.Props.ReaderSession
import Verif.Props.ReaderWriter
import Verif.Props.Regions
import Verif.Props.Rounding
import Verif.Props.Scale
import Verif.Props.ScaleAxes
import Verif.Props.ScaledView
import Verif.Props.Scaling
import Verif.Props.ScalingAccessor
import Verif.Props.ScalingSeam
import Verif.Props.Short
import Verif.Props.Site
import Verif.Props.Sized
import Verif.Props.Spline
import Verif.Props.Streams
import Verif.Props.Strict
import Verif.Props.SubBlock
import Verif.Props.SubBlockMeta
import Verif.Props.SubBlockMore
import Verif.Props.Text
import Verif.Props.Truncated
import Verif.Props.UnscaledView
import Verif.Props.Viewer
import Verif.Props.WriteFault
import Verif.Props.WriterEdit
import Verif.Props.Xml
import Verif.Props.XmlBroken
import Verif.Props.XmlBuilt
import Verif.Props.XmlGrammar
import Verif.Props.XmlText
import Verif.Props.XmlValue
import Verif.Props.Zstd
import Verif.Props.ZstdMore
import Verif.Spec.Accessor
import Verif.Spec.AddOverloads
import Verif.Spec.AxisInfo
import Verif.Spec.Blit
import Verif.Spec.ByteOrder
import Verif.Spec.CApi
import Verif.Spec.CApiCompose
import Verif.Spec.CApiData
import Verif.Spec.CApiHandles
import Verif.Spec.CApiView
import Verif.Spec.Cache
import Verif.Spec.ChannelText
import Verif.Spec.Chunk
import Verif.Spec.CmdCheck
import Verif.Spec.CmdLine
import Verif.Spec.Commands
import Verif.Spec.Composite
import Verif.Spec.CompressOptions
import Verif.Spec.Convert
import Verif.Spec.Coord
import Verif.Spec.Crash
import Verif.Spec.CreateCzi
import Verif.Spec.Czi
import Verif.Spec.DateTime
import Verif.Spec.Decimate
import Verif.Spec.Display
import Verif.Spec.DisplayForeign
import Verif.Spec.DisplayHelper
import Verif.Spec.DocInfo
import Verif.Spec.EditCrash
import Verif.Spec.EditFault
import Verif.Spec.EditedView
import Verif.Spec.Enum
import Verif.Spec.ExternalOut
import Verif.Spec.Extract
import Verif.Spec.FileOut
import Verif.Spec.Fill
import Verif.Spec.Float
import Verif.Spec.JsonOptions
import Verif.Spec.JsonText
import Verif.Spec.Jxr
import Verif.Spec.LayerView
import Verif.Spec.Layers
import Verif.Spec.LoHi
import Verif.Spec.Lookup
import Verif.Spec.Lut
import Verif.Spec.Machine
import Verif.Spec.Md5
import Verif.Spec.MultiChannel
import Verif.Spec.NumText
import Verif.Spec.Owned
import Verif.Spec.Parse
import Verif.Spec.PlaneScan
import Verif.Spec.Prepared
import Verif.Spec.ReaderSession
import Verif.Spec.ReaderWriter
import Verif.Spec.Rect
import Verif.Spec.Regions
import Verif.Spec.Scale
import Verif.Spec.ScaledView
import Verif.Spec.Scaling
import Verif.Spec.ScalingAccessor
import Verif.Spec.Sized
import Verif.Spec.Spline
import Verif.Spec.Streams
import Verif.Spec.SubBlock
import Verif.Spec.SubBlockMeta
import Verif.Spec.Text
import Verif.Spec.Viewer
import Verif.Spec.WriteFault
import Verif.Spec.Xml
import Verif.Spec.XmlBroken
import Verif.Spec.XmlBuilt
import Verif.Spec.XmlGrammar
import Verif.Spec.XmlText
import Verif.Spec.XmlValue
import Verif.Spec.Zstd
