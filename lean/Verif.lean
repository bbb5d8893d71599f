import Verif.Base.Bytes
import Verif.Props.Wire
import Verif.Props.Segments
import Verif.Props.Ioi
import Verif.Props.Values
import Verif.Props.Read
import Verif.Props.Multi
import Verif.Props.Reply
import Verif.Props.Pack
import Verif.Props.PackLayout
import Verif.Props.Lgx
import Verif.Props.Client
import Verif.Props.Sequence
import Verif.Props.ServerTables
import Verif.Props.Store
import Verif.Props.StoreAlias
import Verif.Props.ServerDemo
import Verif.Props.ServerEcho
import Verif.Props.ServerCrash
import Verif.Props.ServerConn
import Verif.Props.Path
import Verif.Props.TypeEncode
import Verif.Props.Listing
import Verif.Props.TagList
import Verif.Props.DataTable
import Verif.Props.TagGroup
import Verif.Props.L5x
import Verif.Props.ServerIo
import Verif.Props.ServerTags
import Verif.Props.ServerRoundtrip
import Verif.Props.Members
import Verif.Props.Connect
import Verif.Props.UdtDict
import Verif.Props.DataVars
import Verif.Props.ReadMulti
import Verif.Props.Service
import Verif.Props.ServerReply
import Verif.Props.ServerList
import Verif.Props.TypeDesc
import Verif.Props.Controller
import Verif.Props.Errors
import Verif.Props.KeepAlive
import Verif.Props.TagGroupRead
import Verif.Props.L5xComments
import Verif.Props.ReadStruct
import Verif.Props.UnpackLayout
import Verif.Props.UdtSize
import Verif.Props.ServeLoop
import Verif.Props.ClientPaths
import Verif.Props.DataTableOps
import Verif.Props.ReplyCrash
import Verif.Props.ServerAttr
import Verif.Props.ServerKeys
import Verif.Props.ServerUcmm
import Verif.Props.ServerSenders
import Verif.Props.ServerIds
import Verif.Props.TableAdd
import Verif.Props.ServerIoRun
import Verif.Props.Udp
import Verif.Props.StoreTypes
import Verif.Props.OpenReply
import Verif.Props.Settings
import Verif.Props.ServerTruth
import Verif.Props.Session
import Verif.Props.WriteAny
import Verif.Props.ServerRace
import Verif.Props.SessionList
import Verif.Props.Comings
import Verif.Props.SessionAsk
import Verif.Props.SessionArrays
import Verif.Props.PackArrays
import Verif.Props.PackOwn
import Verif.Props.ReadOwn
import Verif.Props.WriteOwn
import Verif.Props.WorldAsk
import Verif.Props.Texts
import Verif.Props.ClientTables
import Verif.Props.SessionMulti
import Verif.Props.SessionPut
import Verif.Props.SessionWatch
import Verif.Props.SessionGroup
import Verif.Props.SessionAuto
import Verif.Props.SessionBits
import Verif.Props.SessionTypes
import Verif.Props.SessionBitList
import Verif.Props.SessionAbsent
import Verif.Props.SessionHalf
import Verif.Props.SessionAbsentList
import Verif.Props.SessionLarge
import Verif.Props.IoiNames
import Verif.Props.SessionUnsent
import Verif.Props.ClientLate
import Verif.Props.ServerClose
import Verif.Props.ServerCrashAny
import Verif.Props.BitHigh
import Verif.Props.LongName
import Verif.Props.ReplySize
