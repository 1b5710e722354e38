import Verif.ApiConfig.Props
import Verif.ApiConfig.PropsEncodings
import Verif.Backends.Props
import Verif.Backends.PropsFormats
import Verif.Backends.PropsLists
import Verif.Batching.Props
import Verif.BufSizes.Props
import Verif.BuiltinResampler.PropsPosition
import Verif.BuiltinResampler.PropsWindow
import Verif.ChannelMapper.Props
import Verif.ChannelMatrix.Props
import Verif.ChannelSet.Props
import Verif.CsvDumper.Props
import Verif.CsvDumper.PropsCalls
import Verif.CsvDumper.PropsThread
import Verif.Decimation.Props
import Verif.Defaults.Props
import Verif.DelayedReader.Props
import Verif.Depacketizer.Props
import Verif.DynArray.Props
import Verif.EncoderApi.Props
import Verif.EndToEnd.Props
import Verif.EndpointApi.Props
import Verif.EndpointUri.Props
import Verif.FecCodec.Props
import Verif.FecFlow.Props
import Verif.FecReader.Props
import Verif.FecReader.PropsRecover
import Verif.FecWriter.Props
import Verif.Feedback.Props
import Verif.FileSink.Props
import Verif.FileSource.Props
import Verif.Filter.Props
import Verif.FramePath.Props
import Verif.FreqEstimator.Props
import Verif.Hashmap.Props
import Verif.Hashsum.Props
import Verif.HeapArena.Props
import Verif.Interleaver.Props
import Verif.IntrusiveList.Props
import Verif.IoUri.Props
import Verif.LatencyMonitor.Props
import Verif.LatencyTuner.Props
import Verif.LimitedAlloc.Props
import Verif.LinkMeter.Props
import Verif.LossEstimator.Props
import Verif.LossyAudio.Props
import Verif.MemoryLimiter.Props
import Verif.Mixer.Props
import Verif.MovStats.Props
import Verif.Mpsc.Props
import Verif.NetLoop.Props
import Verif.NodeSlots.Props
import Verif.Ntp.Props
import Verif.PacketCounter.Props
import Verif.PacketQueue.Props
import Verif.Packetizer.Props
import Verif.Packetizer.Props2
import Verif.ParseUnits.Props
import Verif.PcmCoder.Props
import Verif.PcmFormat.Props
import Verif.PcmFormat.PropsFloat
import Verif.PcmNames.Props
import Verif.Pct.Props
import Verif.PipelineLoop.Props
import Verif.Printer.Props
import Verif.Profiler.Props
import Verif.PulseDevice.Props
import Verif.Pump.Props
import Verif.RateLimiter.Props
import Verif.ReceiverRefresh.Props
import Verif.ReceiverRefresh.PropsQuery
import Verif.Reporter.Props
import Verif.ResamplerTime.Props
import Verif.ResamplerWriter.Props
import Verif.RingQueue.Props
import Verif.Router.Props
import Verif.RtcpBuild.Props
import Verif.RtcpFields.Props
import Verif.RtcpGen.Props
import Verif.RtcpNtp.Props
import Verif.RtcpParse.Props
import Verif.RtpCodec.Props
import Verif.Rtt.Props
import Verif.SampleTime.Props
import Verif.Sdp.Props
import Verif.SendTool.Props
import Verif.SenderSlots.Props
import Verif.Seqlock.Props
import Verif.Sequencer.Props
import Verif.SessionRouter.Props
import Verif.SharedPtr.Props
import Verif.SlabPool.Props
import Verif.Slice.Props
import Verif.SocketAddr.Props
import Verif.SortedQueue.Props
import Verif.SpecParse.Props
import Verif.SpecParse.PropsFormat
import Verif.Spsc.Props
import Verif.StateTracker.Props
import Verif.StringBuffer.Props
import Verif.StringBuilder.Props
import Verif.StringList.Props
import Verif.TaskQueue.Props
import Verif.TcpConn.Props
import Verif.TcpServer.Props
import Verif.Timer.Props
import Verif.TsMapping.Props
import Verif.UdpPort.Props
import Verif.UdpPort.PropsMember
import Verif.Units.Props
import Verif.Uuid.Props
import Verif.Watchdog.Props
import Verif.WavFile.Props
import Verif.Wiring.Props
