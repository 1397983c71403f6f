import Verif.Model.Alloc
import Verif.Model.Blockettes2
import Verif.Model.Bytes
import Verif.Model.Calendar
import Verif.Model.Codes
import Verif.Model.Convert
import Verif.Model.Crc
import Verif.Model.CrcTable
import Verif.Model.Detect
import Verif.Model.ExtraHeaders
import Verif.Model.ExtraMem
import Verif.Model.Factor
import Verif.Model.Gaps
import Verif.Model.Glob
import Verif.Model.Headers2
import Verif.Model.Json
import Verif.Model.JsonText
import Verif.Model.Latency
import Verif.Model.Log
import Verif.Model.Mem
import Verif.Model.Msi
import Verif.Model.Options
import Verif.Model.Pack
import Verif.Model.Pack2
import Verif.Model.PathRange
import Verif.Model.Printf
import Verif.Model.Rate
import Verif.Model.RawParse
import Verif.Model.ReadTrace
import Verif.Model.Reader
import Verif.Model.ReaderLife
import Verif.Model.RecMem
import Verif.Model.Record2
import Verif.Model.Record3
import Verif.Model.RecordList
import Verif.Model.Report
import Verif.Model.SampleTime
import Verif.Model.Samples
import Verif.Model.Screen
import Verif.Model.SegMem
import Verif.Model.Select
import Verif.Model.SelectFile
import Verif.Model.SelectMem
import Verif.Model.SelectRead
import Verif.Model.SelectStream
import Verif.Model.Steim
import Verif.Model.Str
import Verif.Model.TimeStr
import Verif.Model.Trace
import Verif.Model.TraceAdd
import Verif.Model.TraceList
import Verif.Model.TracePack
import Verif.Model.UnpackMem
import Verif.Model.Url
import Verif.Model.UrlReader
import Verif.Model.UrlSettings
import Verif.Model.WriteFile
import Verif.Proof.Alloc
import Verif.Proof.AllocDup
import Verif.Proof.AllocTrim
import Verif.Proof.Binary
import Verif.Proof.Blockettes2
import Verif.Proof.Blockettes2Doc
import Verif.Proof.Blockettes2Header
import Verif.Proof.Blockettes2Steps
import Verif.Proof.Blockettes2Within
import Verif.Proof.Bytes
import Verif.Proof.Calendar
import Verif.Proof.Convert
import Verif.Proof.ConvertInt
import Verif.Proof.Crc
import Verif.Proof.Detect
import Verif.Proof.ExtraHeaders
import Verif.Proof.ExtraPrint
import Verif.Proof.Factor
import Verif.Proof.FactorApprox
import Verif.Proof.Glob
import Verif.Proof.Headers2
import Verif.Proof.Headers2Doc
import Verif.Proof.Headers2Rec
import Verif.Proof.Json
import Verif.Proof.JsonChars
import Verif.Proof.JsonPointer
import Verif.Proof.JsonProper
import Verif.Proof.JsonRead
import Verif.Proof.JsonText
import Verif.Proof.JsonWrite
import Verif.Proof.Log
import Verif.Proof.Mem
import Verif.Proof.Msi
import Verif.Proof.MsiFile
import Verif.Proof.Options
import Verif.Proof.Pack
import Verif.Proof.Pack2
import Verif.Proof.Pack2All
import Verif.Proof.Pack2Back
import Verif.Proof.Pack2Loop
import Verif.Proof.Pack2Read
import Verif.Proof.PackRead
import Verif.Proof.Parse
import Verif.Proof.PathRange
import Verif.Proof.Printf
import Verif.Proof.RawParse
import Verif.Proof.RawParse2
import Verif.Proof.RawParseRec
import Verif.Proof.ReadTrace
import Verif.Proof.Reader
import Verif.Proof.ReaderFile
import Verif.Proof.ReaderGood
import Verif.Proof.ReaderParse
import Verif.Proof.ReaderPos
import Verif.Proof.ReaderRange
import Verif.Proof.ReaderRead
import Verif.Proof.ReaderTop
import Verif.Proof.RecMem
import Verif.Proof.RecMemAdd
import Verif.Proof.RecMemJoin
import Verif.Proof.Record2
import Verif.Proof.Record2Bounds
import Verif.Proof.Record3
import Verif.Proof.RecordList
import Verif.Proof.RecordListPoint
import Verif.Proof.Repack
import Verif.Proof.Report
import Verif.Proof.SampleTime
import Verif.Proof.Samples
import Verif.Proof.Screen
import Verif.Proof.SegMem
import Verif.Proof.Select
import Verif.Proof.SelectFile
import Verif.Proof.SelectMem
import Verif.Proof.Steim
import Verif.Proof.Stored
import Verif.Proof.Str
import Verif.Proof.TimeStr
import Verif.Proof.TimeStrRead
import Verif.Proof.Trace
import Verif.Proof.TraceBack
import Verif.Proof.TraceFacts
import Verif.Proof.TraceHist
import Verif.Proof.TraceList
import Verif.Proof.TraceOrder
import Verif.Proof.TracePack
import Verif.Proof.TraceRuns
import Verif.Proof.Url
import Verif.Proof.UrlReader
import Verif.Proof.UrlSmall
import Verif.Proof.WriteFile
import Verif.Props.Alloc
import Verif.Props.AllocDefs
import Verif.Props.Blockettes2
import Verif.Props.Blockettes2Defs
import Verif.Props.Blockettes2Words
import Verif.Props.Calendar
import Verif.Props.Codes
import Verif.Props.Convert
import Verif.Props.Crc
import Verif.Props.DataBounds
import Verif.Props.DataOffset
import Verif.Props.Detect
import Verif.Props.ExtraHeaders
import Verif.Props.ExtraHeadersDefs
import Verif.Props.ExtraMem
import Verif.Props.ExtraPrint
import Verif.Props.Factor
import Verif.Props.Gaps
import Verif.Props.Glob
import Verif.Props.Glob2
import Verif.Props.HeaderCount
import Verif.Props.Headers2
import Verif.Props.Headers2Defs
import Verif.Props.JsonText
import Verif.Props.JsonTextDefs
import Verif.Props.Latency
import Verif.Props.Log
import Verif.Props.Log2
import Verif.Props.LogDefs
import Verif.Props.Msi
import Verif.Props.MsiDefs
import Verif.Props.MsiReport
import Verif.Props.Options
import Verif.Props.OptionsDefs
import Verif.Props.Pack
import Verif.Props.Pack2
import Verif.Props.Pack2Defs
import Verif.Props.PackDefs
import Verif.Props.PathRange
import Verif.Props.Rate
import Verif.Props.RawParse
import Verif.Props.RawParseDefs
import Verif.Props.RawRead
import Verif.Props.RawRead2
import Verif.Props.RawShown
import Verif.Props.ReadTrace
import Verif.Props.ReadTraceDefs
import Verif.Props.Reader
import Verif.Props.ReaderDefs
import Verif.Props.ReaderFd
import Verif.Props.ReaderLife
import Verif.Props.RecMem
import Verif.Props.RecMemDefs
import Verif.Props.Record2
import Verif.Props.Record2Defs
import Verif.Props.Record2Fields
import Verif.Props.Record3
import Verif.Props.RecordList
import Verif.Props.RecordListDefs
import Verif.Props.Repack
import Verif.Props.Report
import Verif.Props.ReportDefs
import Verif.Props.SampleTime
import Verif.Props.Samples
import Verif.Props.Screen
import Verif.Props.ScreenDefs
import Verif.Props.SegMem
import Verif.Props.SegMemDefs
import Verif.Props.Select
import Verif.Props.SelectFile
import Verif.Props.SelectFileDefs
import Verif.Props.SelectLines
import Verif.Props.SelectMem
import Verif.Props.SelectMemDefs
import Verif.Props.SelectRead
import Verif.Props.SelectStream
import Verif.Props.Steim
import Verif.Props.Stored
import Verif.Props.StoredDefs
import Verif.Props.Str
import Verif.Props.TimeStr
import Verif.Props.TimeStr2
import Verif.Props.TimeStrDefs
import Verif.Props.Trace
import Verif.Props.TraceAdd
import Verif.Props.TraceBack
import Verif.Props.TraceBackDefs
import Verif.Props.TraceDefs
import Verif.Props.TraceExtra
import Verif.Props.TraceList
import Verif.Props.TraceListDefs
import Verif.Props.TracePack
import Verif.Props.TracePackDefs
import Verif.Props.TraceRuns
import Verif.Props.TraceRunsDefs
import Verif.Props.TraceSplit
import Verif.Props.UnpackMem
import Verif.Props.Url
import Verif.Props.UrlDefs
import Verif.Props.UrlReader
import Verif.Props.UrlReaderDefs
import Verif.Props.UrlSettings
import Verif.Props.WriteFile
import Verif.Props.WriteFileDefs
import Verif.Props.WriteFull
import Verif.Spec.Binary
import Verif.Spec.Calendar
import Verif.Spec.Crc
import Verif.Spec.Decimal
import Verif.Spec.Detect
import Verif.Spec.Factor
import Verif.Spec.Glob
import Verif.Spec.Ieee
import Verif.Spec.Json
import Verif.Spec.JsonText
import Verif.Spec.Leap
import Verif.Spec.Log
import Verif.Spec.Msi
import Verif.Spec.Options
import Verif.Spec.PathRange
import Verif.Spec.RawParse
import Verif.Spec.Record2
import Verif.Spec.Record3
import Verif.Spec.Rounding
import Verif.Spec.Samples
import Verif.Spec.Select
import Verif.Spec.SelectFile
import Verif.Spec.Steim
import Verif.Spec.TimeStr
import Verif.Spec.Url
import Verif.Spec.UrlSettings
import Verif.Spec.Utf8
