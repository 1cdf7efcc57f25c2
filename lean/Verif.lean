import Verif.Basic
import Verif.Float
import Verif.Dlis.Types
import Verif.Dlis.TypesLemmas
import Verif.Dlis.TypesSpec
import Verif.Dlis.TypesProps
import Verif.Dlis.Floats
import Verif.Dlis.FloatsProps
import Verif.Dlis.Value
import Verif.Dlis.ValueProps
import Verif.Dlis.Pack
import Verif.Dlis.PackProps
import Verif.Dlis.PackText
import Verif.Dlis.Sul
import Verif.Dlis.SulProps
import Verif.Dlis.HeaderProps
import Verif.Dlis.Fingerprint
import Verif.Dlis.FingerprintProps
import Verif.Stream
import Verif.Dlis.Io
import Verif.Dlis.IoLemmas
import Verif.Dlis.ExtractProps
import Verif.Dlis.IndexProps
import Verif.Dlis.FdataProps
import Verif.Dlis.Eflr
import Verif.Dlis.EflrSpec
import Verif.Dlis.ObjectProps
import Verif.Dlis.EflrProps
import Verif.Dlis.EflrMore
import Verif.Dlis.PoolProps
import Verif.Dlis.EflrCase
import Verif.Py
import Verif.Utf8
import Verif.Dlis.Curves
import Verif.Dlis.CurvesProps
import Verif.Dlis.Frame
import Verif.Dlis.FrameProps
import Verif.Dlis.LayoutProps
import Verif.Decode
import Verif.Tapemark
import Verif.ErrorHandler
import Verif.Dlis.Store
import Verif.Dlis.StoreProps
import Verif.Dlis.LookupProps
import Verif.Dlis.StoreCase
import Verif.Dlis.Accessors
import Verif.Dlis.Dimension
import Verif.Dlis.Attribute
import Verif.Dlis.AttributeProps
import Verif.Dlis.Load
import Verif.Dlis.LoadProps
import Verif.Dlis.LoadFiles
import Verif.Lis.Types
import Verif.Lis.TypesProps
import Verif.Lis.Pack
import Verif.Lis.Io
import Verif.Lis.HeaderProps
import Verif.Lis.IndexProps
import Verif.Lis.IndexFiles
import Verif.Lis.ReadProps
import Verif.Lis.Implicits
import Verif.Lis.Protocol
import Verif.Lis.ProtocolProps
import Verif.Lis.InfoProps
import Verif.Lis.HeaderRecords
import Verif.Double
import Verif.Lis.Curves
import Verif.Lis.CurvesLayout
import Verif.Lis.CurvesRows
import Verif.Lis.CurvesIndex
import Verif.Lis.Labels
import Verif.Lis.Load
import Verif.Lis.LoadFiles
import Verif.Lis.DataFormat
import Verif.Lis.LogicalFile
import Verif.Lis.EndToEnd
import Verif.Dlis.EndToEnd
import Verif.Dlis.ChannelFrame
import Verif.Dlis.TapeImage
import Verif.Lis.TapeStart
import Verif.Dlis.Sampled
import Verif.Dlis.Classes
import Verif.Dlis.Describe
import Verif.Dlis.DescribeProps
import Verif.Dlis.FileSummary
import Verif.Dlis.Equality
import Verif.Session
import Verif.Lis.TapeImage
import Verif.Lis.Accessors
import Verif.Lis.FileCurves
import Verif.Dlis.FromDisk
import Verif.Dlis.Construct
import Verif.Dlis.Label
import Verif.Dlis.Recorded
import Verif.Dlis.Search
import Verif.Dlis.Layout
import Verif.Dlis.SummaryText
import Verif.Dlis.ObjectText
import Verif.Dlis.RecordedText
import Verif.Messages
import Verif.Dlis.EflrLog
import Verif.Dlis.IoLog
import Verif.Dlis.ReadLog
import Verif.Dlis.LoadLog
import Verif.Lis.LoadLog
import Verif.Lis.ParseLog
import Verif.Lis.CurvesLog
import Verif.Dlis.LookupLog
import Verif.Dlis.FrameLog
import Verif.UserLog
import Verif.Reprs
import Verif.RawRead
import Verif.Dlis.LoadTexts
import Verif.Lis.LoadTexts
