import Verif.Base.Bytes
import Verif.Base.Chains
import Verif.Base.Linked
import Verif.Base.ListInd
import Verif.Broadcast.Model
import Verif.Broadcast.Props
import Verif.Broadcast.Spec
import Verif.Client.BodyLemmas
import Verif.Client.BodyModel
import Verif.Client.BodyProps
import Verif.Client.BodyRoom
import Verif.Client.BodyRun
import Verif.Client.BodySpec
import Verif.Client.BodyWire
import Verif.Client.RequestModel
import Verif.Client.RequestProps
import Verif.Codec.AvcLemmas
import Verif.Codec.HeaderLemmas
import Verif.Codec.HevcLemmas
import Verif.Codec.HevcModel
import Verif.Codec.HevcProps
import Verif.Codec.HevcRecord
import Verif.Codec.HevcSpec
import Verif.Codec.HevcViolations
import Verif.Codec.Lemmas
import Verif.Codec.Model
import Verif.Codec.Props
import Verif.Codec.Spec
import Verif.Codec.TsLemmas
import Verif.Codec.TsProps
import Verif.Codec.TsSound
import Verif.Codec.Violations
import Verif.Dash.CutKeys
import Verif.Dash.CutLemmas
import Verif.Dash.CutModel
import Verif.Dash.CutOrder
import Verif.Dash.CutProps
import Verif.Dash.CutSpec
import Verif.Dash.CutStep
import Verif.Dash.InitLemmas
import Verif.Dash.InitModel
import Verif.Dash.InitProps
import Verif.Dash.InitSpec
import Verif.Dash.Mp4Lemmas
import Verif.Dash.Mp4Model
import Verif.Dash.Mp4Props
import Verif.Dash.Mp4Spec
import Verif.Dash.Mp4Track
import Verif.DashMpd.Bound
import Verif.DashMpd.Cut
import Verif.DashMpd.Examples
import Verif.DashMpd.Model
import Verif.DashMpd.Names
import Verif.DashMpd.Props
import Verif.DashMpd.Read
import Verif.DashMpd.Spec
import Verif.DashMpd.Text
import Verif.Hls.AdtsLemmas
import Verif.Hls.AdtsModel
import Verif.Hls.AdtsProps
import Verif.Hls.AdtsRun
import Verif.Hls.AdtsSpec
import Verif.Hls.AnnexLemmas
import Verif.Hls.AnnexModel
import Verif.Hls.AnnexProps
import Verif.Hls.AnnexRun
import Verif.Hls.AnnexSafe
import Verif.Hls.AnnexSpec
import Verif.Hls.AnnexUnits
import Verif.Hls.CleanLemmas
import Verif.Hls.CleanModel
import Verif.Hls.CleanProps
import Verif.Hls.CleanSpec
import Verif.Hls.FragCuts
import Verif.Hls.FragFrames
import Verif.Hls.FragKeys
import Verif.Hls.FragLemmas
import Verif.Hls.FragModel
import Verif.Hls.FragProps
import Verif.Hls.FragRun
import Verif.Hls.FragSpec
import Verif.Hls.FragTime
import Verif.Hls.RestoreLemmas
import Verif.Hls.RestoreModel
import Verif.Hls.RestoreProps
import Verif.Hls.RestoreRun
import Verif.Hls.RestoreSpec
import Verif.Hls2.GopBurst
import Verif.Hls2.GopCache
import Verif.Hls2.GopModel
import Verif.Hls2.GopProps
import Verif.Hls2.GopPush
import Verif.Hls2.GopRun
import Verif.Hls2.GopSess
import Verif.Hls2.GopSpec
import Verif.Hls2.GopTrack
import Verif.Hls2.GopViolations
import Verif.Hls2.GopWorld
import Verif.Hls2.HeapLemmas
import Verif.Hls2.HeapModel
import Verif.Hls2.HeapProps
import Verif.Hls2.HeapServe
import Verif.Hls2.HeapSim
import Verif.Hls2.HeapSpec
import Verif.Hls2.HeapViolations
import Verif.Hls2.HeapWorld
import Verif.Hls2.Model
import Verif.Hls2.Props
import Verif.Hls2.RunLemmas
import Verif.Hls2.SliceLemmas
import Verif.Hls2.Spec
import Verif.Hls2.TextLemmas
import Verif.Hls2.Violations
import Verif.Json.Examples
import Verif.Json.Mem
import Verif.Json.Model
import Verif.Json.Props
import Verif.Json.Spec
import Verif.Json.StatExamples
import Verif.Json.StatLemmas
import Verif.Json.StatModel
import Verif.Json.StatProps
import Verif.Json.StatSpec
import Verif.Json.Text
import Verif.Live.FanFollow
import Verif.Live.FanKept
import Verif.Live.FanLemmas
import Verif.Live.FanModel
import Verif.Live.FanProps
import Verif.Live.FanSpec
import Verif.Live.FanTop
import Verif.Live.GopSendModel
import Verif.Live.GopSendPlayer
import Verif.Live.GopSendProps
import Verif.Live.GopSendPub
import Verif.Live.GopSendQueue
import Verif.Live.GopSendRun
import Verif.Live.GopSendSpec
import Verif.Live.GopSendStep
import Verif.Live.GopSendWorld
import Verif.Multiport.Examples
import Verif.Multiport.Lemmas
import Verif.Multiport.Model
import Verif.Multiport.Props
import Verif.Multiport.Spec
import Verif.Operate.Examples
import Verif.Operate.Lemmas
import Verif.Operate.Model
import Verif.Operate.Props
import Verif.Operate.Spec
import Verif.Proxy.Examples
import Verif.Proxy.Lemmas
import Verif.Proxy.Model
import Verif.Proxy.Props
import Verif.Proxy.Spec
import Verif.Pulls.Examples
import Verif.Pulls.Lemmas
import Verif.Pulls.Model
import Verif.Pulls.Phases
import Verif.Pulls.Props
import Verif.Pulls.Spec
import Verif.Resolver.Count
import Verif.Resolver.Examples
import Verif.Resolver.Follow
import Verif.Resolver.Inv
import Verif.Resolver.Model
import Verif.Resolver.Own
import Verif.Resolver.Props
import Verif.Resolver.Spec
import Verif.Resolver.Trace
import Verif.Rtmp.AccessModel
import Verif.Rtmp.AccessProps
import Verif.Rtmp.AckModel
import Verif.Rtmp.AckProps
import Verif.Rtmp.AggregateModel
import Verif.Rtmp.AggregateProps
import Verif.Rtmp.AmfDecode
import Verif.Rtmp.AmfEncode
import Verif.Rtmp.AmfLemmas
import Verif.Rtmp.AmfModel
import Verif.Rtmp.AmfProps
import Verif.Rtmp.AmfSafe
import Verif.Rtmp.AmfSpec
import Verif.Rtmp.BandwidthModel
import Verif.Rtmp.BandwidthProps
import Verif.Rtmp.BitOpModel
import Verif.Rtmp.BitOpProps
import Verif.Rtmp.ChunkBound
import Verif.Rtmp.ChunkLemmas
import Verif.Rtmp.ChunkModel
import Verif.Rtmp.ChunkProps
import Verif.Rtmp.ChunkSafe
import Verif.Rtmp.ChunkSeg
import Verif.Rtmp.ChunkSpec
import Verif.Rtmp.ChunkTrace
import Verif.Rtmp.ControlModel
import Verif.Rtmp.ControlProps
import Verif.Rtmp.DispatchModel
import Verif.Rtmp.DispatchProps
import Verif.Rtmp.EvalModel
import Verif.Rtmp.EvalProps
import Verif.Rtmp.FlvLemmas
import Verif.Rtmp.FlvModel
import Verif.Rtmp.FlvOut
import Verif.Rtmp.FlvParse
import Verif.Rtmp.FlvProps
import Verif.Rtmp.FlvRun
import Verif.Rtmp.FlvSpec
import Verif.Rtmp.FrameModel
import Verif.Rtmp.FrameProps
import Verif.Rtmp.GopLemmas
import Verif.Rtmp.GopModel
import Verif.Rtmp.GopProps
import Verif.Rtmp.HandshakeModel
import Verif.Rtmp.HandshakeProps
import Verif.Rtmp.HandshakeWire
import Verif.Rtmp.HookModel
import Verif.Rtmp.HookProps
import Verif.Rtmp.LimitModel
import Verif.Rtmp.LimitProps
import Verif.Rtmp.LiveCtxModel
import Verif.Rtmp.LiveCtxProps
import Verif.Rtmp.LiveRegLemmas
import Verif.Rtmp.LiveRegModel
import Verif.Rtmp.LiveRegOps
import Verif.Rtmp.LiveRegProps
import Verif.Rtmp.LiveRegSpec
import Verif.Rtmp.LiveRegStreams
import Verif.Rtmp.NotifyLemmas
import Verif.Rtmp.NotifyModel
import Verif.Rtmp.NotifyProps
import Verif.Rtmp.NotifySpec
import Verif.Rtmp.NotifyUrlModel
import Verif.Rtmp.NotifyUrlProps
import Verif.Rtmp.PingModel
import Verif.Rtmp.PingProps
import Verif.Rtmp.QueueLemmas
import Verif.Rtmp.QueueModel
import Verif.Rtmp.QueueProps
import Verif.Rtmp.RecFile
import Verif.Rtmp.RecInv
import Verif.Rtmp.RecLemmas
import Verif.Rtmp.RecModel
import Verif.Rtmp.RecPlan
import Verif.Rtmp.RecProps
import Verif.Rtmp.RecRun
import Verif.Rtmp.RecSegments
import Verif.Rtmp.RecSession
import Verif.Rtmp.RecSpec
import Verif.Rtmp.SendLemmas
import Verif.Rtmp.SendModel
import Verif.Rtmp.SendProps
import Verif.Rtmp.SendSpec
import Verif.StatXml.Examples
import Verif.StatXml.Lemmas
import Verif.StatXml.Model
import Verif.StatXml.Props
import Verif.StatXml.Says
import Verif.StatXml.Spec
import Verif.StatXml.Whole
import Verif.Timer.Count
import Verif.Timer.Examples
import Verif.Timer.Inv
import Verif.Timer.Model
import Verif.Timer.Props
import Verif.Timer.Spec
import Verif.Toolkit.MapLemmas
import Verif.Toolkit.MapModel
import Verif.Toolkit.MapProps
import Verif.Toolkit.MapSpec
import Verif.Toolkit.PooldModel
import Verif.Toolkit.PooldProps
import Verif.Toolkit.RbufModel
import Verif.Toolkit.RbufProps
import Verif.Toolkit.UrlModel
import Verif.Toolkit.UrlProps
import Verif.Ts.CrcLemmas
import Verif.Ts.CrcModel
import Verif.Ts.CrcProps
import Verif.Ts.CrcSpec
import Verif.Ts.FileLemmas
import Verif.Ts.FileModel
import Verif.Ts.FileProps
import Verif.Ts.FileSpec
import Verif.Ts.PacketLemmas
import Verif.Ts.PacketModel
import Verif.Ts.PacketProps
import Verif.Ts.PacketSpec
import Verif.Ts.PacketStream
import Verif.TsDash.Build
import Verif.TsDash.Copy
import Verif.TsDash.Examples
import Verif.TsDash.InitEntry
import Verif.TsDash.InitExamples
import Verif.TsDash.InitHeard
import Verif.TsDash.InitModel
import Verif.TsDash.InitProps
import Verif.TsDash.InitRead
import Verif.TsDash.InitSpec
import Verif.TsDash.InitText
import Verif.TsDash.Model
import Verif.TsDash.MpdEval
import Verif.TsDash.MpdExamples
import Verif.TsDash.MpdHeard
import Verif.TsDash.MpdModel
import Verif.TsDash.MpdProps
import Verif.TsDash.MpdRate
import Verif.TsDash.MpdRead
import Verif.TsDash.MpdRing
import Verif.TsDash.MpdRun
import Verif.TsDash.MpdStart
import Verif.TsDash.MpdStep
import Verif.TsDash.MpdText
import Verif.TsDash.MpdWant
import Verif.TsDash.MpdWrite
import Verif.TsDash.Props
import Verif.TsDash.Run
import Verif.TsDash.Safe
import Verif.TsDash.Spec
import Verif.TsDash.Text
import Verif.TsDash.Violations
import Verif.TsIn.CrcLemmas
import Verif.TsIn.DemuxLemmas
import Verif.TsIn.HlsExamples
import Verif.TsIn.HlsLemmas
import Verif.TsIn.HlsModel
import Verif.TsIn.HlsMore
import Verif.TsIn.HlsProps
import Verif.TsIn.HlsSpec
import Verif.TsIn.HlsText
import Verif.TsIn.PacketLemmas
import Verif.TsIn.PacketizeLemmas
import Verif.TsIn.ReadExamples
import Verif.TsIn.ReadLemmas
import Verif.TsIn.ReadModel
import Verif.TsIn.ReadProps
import Verif.TsIn.ReadSpec
import Verif.TsIn.ReadView
import Verif.TsIn.StreamLemmas
import Verif.TsIn.TableLemmas
import Verif.TsIn.WriteContent
import Verif.TsIn.WriteExamples
import Verif.TsIn.WriteLemmas
import Verif.TsIn.WriteModel
import Verif.TsIn.WriteProps
import Verif.TsIn.WriteSpec
import Verif.Xml.Lemmas
import Verif.Xml.MpdSpec
import Verif.Xml.Spec
import Verif.Zone.Inv
import Verif.Zone.Lemmas
import Verif.Zone.Model
import Verif.Zone.Props
import Verif.Zone.Spec
import Verif.Zone.Table
