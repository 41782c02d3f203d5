import Verif.Props.Measure
import Verif.Lemmas.Disk
import Verif.Lemmas.OpsZero
import Verif.Lemmas.OpsRead
import Verif.Lemmas.Memory
import Verif.Lemmas.FileLaws
import Verif.Lemmas.NbdBackend
import Verif.Props.Auth
import Verif.Props.HttpParse
import Verif.Props.HttpServer
import Verif.Props.Images
import Verif.Props.Patch
import Verif.Props.Backends
import Verif.Props.History
import Verif.Props.Extents
import Verif.Props.Checksum
import Verif.Props.Nbd
import Verif.Props.ClientQueue
import Verif.Props.ClientIo
import Verif.Props.ClientHandler
import Verif.Props.NbdCopy
import Verif.Props.Options
import Verif.Props.Url
import Verif.Props.Config
import Verif.Props.Container
import Verif.Props.Tickets
import Verif.Props.Engine
import Verif.Props.HttpBackend
import Verif.Props.Concurrent
import Verif.Props.NbdHandshake
import Verif.Props.Api
import Verif.Props.FileOpen
import Verif.Props.ClientOptions
import Verif.Props.NbdWire
import Verif.Props.Daemon
import Verif.Props.NbdExtents
import Verif.Props.QemuNbd
import Verif.Props.Upload
import Verif.Props.Progress
import Verif.Props.Admin
import Verif.Props.AdminTool
import Verif.Props.HttpConnect
import Verif.Props.HttpExtents
import Verif.Props.Response
import Verif.Props.SparseStream
import Verif.Props.LibvirtStream
import Verif.Props.GoClient
import Verif.Props.GoMap
import Verif.Props.Stats
import Verif.Props.OpsCancel
import Verif.Props.Tool
import Verif.Props.ImageioClient
import Verif.Props.Download
import Verif.Props.LocalImage
import Verif.Props.System
import Verif.Props.Json
import Verif.Props.Ini
import Verif.Props.ShowConfig
import Verif.Props.Directio
import Verif.Props.Live
import Verif.Props.LiveRead
import Verif.Props.LiveSure
import Verif.Props.LiveDurable
import Verif.Props.Query
import Verif.Props.Ids
import Verif.Props.ProgressText
import Verif.Props.OpenBackend
import Verif.Props.Closing
import Verif.Props.WithStatement
import Verif.Props.Ioutil
import Verif.Props.ConfigReads
import Verif.Props.Profiler
import Verif.Props.UnixServers
import Verif.Props.MemoryFull
import Verif.Props.QemuLife
import Verif.Props.RangeErrors
import Verif.Props.Algorithms
import Verif.Props.GoHandles
import Verif.Props.GoExtents
