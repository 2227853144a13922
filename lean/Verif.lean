import Verif.Lemmas.Addr
import Verif.Lemmas.AtomicBody
import Verif.Lemmas.AtomicFrame
import Verif.Lemmas.AtomicInv
import Verif.Lemmas.AtomicReq
import Verif.Lemmas.AtomicRun
import Verif.Lemmas.BibAtoms
import Verif.Lemmas.BibBasic
import Verif.Lemmas.BibFate
import Verif.Lemmas.BibFind
import Verif.Lemmas.BibGood
import Verif.Lemmas.BibOps
import Verif.Lemmas.BibSorted
import Verif.Lemmas.BuildAlloc
import Verif.Lemmas.BuildBasic
import Verif.Lemmas.BuildError
import Verif.Lemmas.BuildFast
import Verif.Lemmas.BuildInner
import Verif.Lemmas.BuildL4
import Verif.Lemmas.BuildSix
import Verif.Lemmas.BuildSlow
import Verif.Lemmas.Csum
import Verif.Lemmas.FileEntry
import Verif.Lemmas.FileFirst
import Verif.Lemmas.FileGlobal
import Verif.Lemmas.FileKernel
import Verif.Lemmas.FileLoad
import Verif.Lemmas.FileMsg
import Verif.Lemmas.FileObj
import Verif.Lemmas.FileRun
import Verif.Lemmas.Globals
import Verif.Lemmas.InstList
import Verif.Lemmas.Json
import Verif.Lemmas.LifeBasic
import Verif.Lemmas.LifeHook
import Verif.Lemmas.LifeRun
import Verif.Lemmas.LifeTable
import Verif.Lemmas.LifeTranslate
import Verif.Lemmas.LifeXlat
import Verif.Lemmas.Nat64
import Verif.Lemmas.Nat64Bib
import Verif.Lemmas.NlAttr
import Verif.Lemmas.Nla
import Verif.Lemmas.Pool4
import Verif.Lemmas.Pool4Trees
import Verif.Lemmas.Rfc6052
import Verif.Lemmas.Rtrie
import Verif.Lemmas.RtrieAdd
import Verif.Lemmas.RtrieF
import Verif.Lemmas.RtrieOps
import Verif.Lemmas.RtrieRm
import Verif.Lemmas.RtrieRmSpec
import Verif.Lemmas.Text
import Verif.Lemmas.Wire
import Verif.Lemmas.WireSent
import Verif.Lemmas.XlatorGood
import Verif.Lemmas.XlatorHeap
import Verif.Lemmas.XlatorRun
import Verif.Lemmas.XlatorSteps
import Verif.Model.Addr
import Verif.Model.AtomicConfig
import Verif.Model.Bib
import Verif.Model.BibDump
import Verif.Model.Build
import Verif.Model.Cmd
import Verif.Model.Csum
import Verif.Model.Daemon
import Verif.Model.DaemonStart
import Verif.Model.DaemonStats
import Verif.Model.Denylist4
import Verif.Model.Eam
import Verif.Model.File
import Verif.Model.Follow
import Verif.Model.Globals
import Verif.Model.Header
import Verif.Model.Icmp
import Verif.Model.IcmpExt
import Verif.Model.InstList
import Verif.Model.Joold
import Verif.Model.JooldMsg
import Verif.Model.Json
import Verif.Model.Leaks
import Verif.Model.Life
import Verif.Model.Listing
import Verif.Model.Modules
import Verif.Model.Mtu
import Verif.Model.Nat64
import Verif.Model.NlAttr
import Verif.Model.Nla
import Verif.Model.Options
import Verif.Model.Packet
import Verif.Model.Pool4
import Verif.Model.Pool4List
import Verif.Model.RbTree
import Verif.Model.ReadFile
import Verif.Model.Requests
import Verif.Model.Response
import Verif.Model.Rfc6052
import Verif.Model.Rfc6056
import Verif.Model.Rtrie
import Verif.Model.RtrieKey
import Verif.Model.Rules
import Verif.Model.Siit
import Verif.Model.Stats
import Verif.Model.TcpSM
import Verif.Model.Text
import Verif.Model.Types
import Verif.Model.Whole
import Verif.Model.WholeAny
import Verif.Model.WholeErr
import Verif.Model.WholeSiit
import Verif.Model.WholeSiitAny
import Verif.Model.WholeSiitTurn
import Verif.Model.WholeTurn
import Verif.Model.Wire
import Verif.Model.WireErr
import Verif.Model.WireSlow
import Verif.Model.Xlator
import Verif.Props.Atomic
import Verif.Props.BibDump
import Verif.Props.BibJoold
import Verif.Props.BibMapping
import Verif.Props.BibPackets
import Verif.Props.BibRemoval
import Verif.Props.BibTables
import Verif.Props.BibTimers
import Verif.Props.Build
import Verif.Props.Cmd
import Verif.Props.Csum
import Verif.Props.Daemon
import Verif.Props.DaemonAck
import Verif.Props.DaemonRun
import Verif.Props.DaemonStart
import Verif.Props.DaemonStats
import Verif.Props.DaemonWire
import Verif.Props.Denylist4
import Verif.Props.Eam
import Verif.Props.EamDefects
import Verif.Props.EamTable
import Verif.Props.EamXlat
import Verif.Props.File
import Verif.Props.FileSpec
import Verif.Props.Follow
import Verif.Props.Globals
import Verif.Props.Header
import Verif.Props.Icmp
import Verif.Props.IcmpExt
import Verif.Props.InstList
import Verif.Props.InstListDefects
import Verif.Props.Joold
import Verif.Props.JooldMsg
import Verif.Props.Json
import Verif.Props.JsonText
import Verif.Props.Leaks
import Verif.Props.Life
import Verif.Props.Listing
import Verif.Props.ListingMore
import Verif.Props.ListingTables
import Verif.Props.Modules
import Verif.Props.ModulesRun
import Verif.Props.ModulesSafe
import Verif.Props.Mtu
import Verif.Props.Nat64
import Verif.Props.Nat64Back
import Verif.Props.Nat64Errors
import Verif.Props.Nat64Examples
import Verif.Props.Nat64Filter
import Verif.Props.Nat64Hairpin
import Verif.Props.NlAttr
import Verif.Props.NlSafe
import Verif.Props.Options
import Verif.Props.Packet
import Verif.Props.Pool4
import Verif.Props.Pool4Defects
import Verif.Props.Pool4Index
import Verif.Props.Pool4List
import Verif.Props.Pool4Masks
import Verif.Props.Prefix
import Verif.Props.RbTree
import Verif.Props.ReadFile
import Verif.Props.ReadFileCfg
import Verif.Props.Requests
import Verif.Props.RequestsAny
import Verif.Props.RequestsRm
import Verif.Props.Response
import Verif.Props.Rfc6052
import Verif.Props.Rfc6056F
import Verif.Props.Rtrie
import Verif.Props.RtrieDefects
import Verif.Props.RtrieKey
import Verif.Props.RtrieList
import Verif.Props.Rules
import Verif.Props.Sharper
import Verif.Props.Sharper2
import Verif.Props.Siit
import Verif.Props.SiitExample
import Verif.Props.SiitPackets
import Verif.Props.Stats
import Verif.Props.TcpSM
import Verif.Props.Text
import Verif.Props.Whole
import Verif.Props.WholeAny
import Verif.Props.WholeAnyEx
import Verif.Props.WholeErr
import Verif.Props.WholeErrEx
import Verif.Props.WholeErrTalk
import Verif.Props.WholeEx
import Verif.Props.WholeSiit
import Verif.Props.WholeSiitAny
import Verif.Props.WholeSiitEx
import Verif.Props.WholeSiitTalk
import Verif.Props.WholeSiitTurn
import Verif.Props.WholeTurn
import Verif.Props.WholeTurnEx
import Verif.Props.WholeTurned
import Verif.Props.Wire
import Verif.Props.WireBack
import Verif.Props.WireErr
import Verif.Props.WireErrEx
import Verif.Props.WireErrSix
import Verif.Props.WireEx
import Verif.Props.WireFar
import Verif.Props.WireSix
import Verif.Props.WireSlow
import Verif.Props.WireSlowEx
import Verif.Props.WireSpec
import Verif.Props.Xlator
import Verif.Props.XlatorDefects
import Verif.Props.XlatorReplace
import Verif.Props.XlatorTable
