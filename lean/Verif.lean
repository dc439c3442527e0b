import Verif.Props.CircBuf
import Verif.Props.Cdr
import Verif.Props.DataExport
import Verif.Props.Crc16
import Verif.Props.Varint
import Verif.Props.Base64
import Verif.Props.Cbor
import Verif.Props.Rle
import Verif.Props.ChunkTransport
import Verif.Props.EventStorage
import Verif.Props.FreertosRegions
import Verif.Props.SerializerHelper
import Verif.Props.DataSourceRle
import Verif.Props.Packetizer
import Verif.Props.Log
import Verif.Props.LogUpload
import Verif.Props.RebootTracking
import Verif.Props.Shell
import Verif.Props.TaskWatchdog
import Verif.Props.TraceEvent
import Verif.Props.Coredump
import Verif.Props.Http
import Verif.Props.HttpRequest
import Verif.Props.HeapStats
import Verif.Props.Metrics
import Verif.Props.MetricsCollect
import Verif.Props.MetricsSession
import Verif.Props.CompactLog
import Verif.Props.BuildId
import Verif.Props.CoredumpStorage
import Verif.Props.RebootEvent
import Verif.Props.BufferedStorage
import Verif.Props.CoredumpBuffered
import Verif.Props.NvEvents
import Verif.Props.CortexM
import Verif.Props.CortexAR
import Verif.Props.FaultArch
import Verif.Props.FlashPorts
import Verif.Props.FlashBlocks
import Verif.Props.SoftDevice
import Verif.Props.ArmRegions
import Verif.Props.PortTime
import Verif.Props.PortUsage
import Verif.Props.ResetReason
import Verif.Props.SelfTest
import Verif.Props.SoftwareWatchdog
import Verif.Props.ZephyrOta
import Verif.Props.ZephyrConn
import Verif.Props.ZephyrUpload
import Verif.Props.MbedtlsClient
import Verif.Props.MbedtlsUpload
import Verif.Props.EspUpload
import Verif.Props.EspOta
import Verif.Props.PeriodicUpload
import Verif.Props.Mds
import Verif.Props.ZephyrRegions
import Verif.Props.ZephyrLog
import Verif.Props.ZephyrFota
import Verif.Props.System
import Verif.Props.NetMetrics
import Verif.Props.LogExport
import Verif.Props.PortFaults
import Verif.Props.PortRegions
import Verif.Props.PortBoot
import Verif.Props.HeapWrap
import Verif.Props.DeviceSerial
import Verif.Props.MetricsRace
import Verif.Props.TimerRace
import Verif.Props.TaskWatchdogRace
import Verif.Props.LogRace
import Verif.Props.WifiMetrics
import Verif.Props.ThreadMetrics
import Verif.Props.RootCerts
import Verif.Props.PortLog
import Verif.Props.MetricsDebug
import Verif.Props.StorageReport
import Verif.Props.BatteryRace
import Verif.Props.Particle
import Verif.Props.SystemTime
import Verif.Props.ExampleStorage
import Verif.Props.WicedHttp
import Verif.Props.Mqtt
import Verif.Props.Settings
import Verif.Props.CdrExample
import Verif.Props.OtaSession
import Verif.Props.PartitionInfo
import Verif.Props.BuildIdScript
import Verif.Props.GdbCoredump
import Verif.Props.WifiJoin
import Verif.Props.EclipsePatch
import Verif.Props.ArduinoLibrary
import Verif.Props.CmsisPack
import Verif.Props.GdbChunks
import Verif.Props.GdbUpload
import Verif.Props.GdbRegisters
import Verif.Props.ChunkWatcher
import Verif.Props.ExampleMetrics
import Verif.Props.ExampleSbrk
import Verif.Props.GdbXtensa
import Verif.Props.CurlExamples
import Verif.Props.CypressMqtt
import Verif.Props.ExampleStartup
import Verif.Props.ArchCortexM
import Verif.Props.MbedHexdump
import Verif.Props.QemuPlatform
import Verif.Props.EspLed
import Verif.Props.EspCores
import Verif.Props.DemoCommands
