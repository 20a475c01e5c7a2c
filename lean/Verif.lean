import Verif.PropsBase64
import Verif.PropsBoolTime
import Verif.PropsVoucher
import Verif.PropsVoucherHeap
import Verif.PropsJson
import Verif.PropsList
import Verif.PropsAdversary
import Verif.PropsConfig
import Verif.PropsServer
import Verif.PropsRegistrar
import Verif.PropsEnroll
import Verif.PropsEnd
import Verif.PropsConcurrent
import Verif.PropsRoutes
import Verif.PropsTarget
import Verif.PropsHeaders
import Verif.PropsFraming
import Verif.PropsUtils
import Verif.PropsClock
import Verif.PropsLog
import Verif.PropsCli
import Verif.PropsNames
import Verif.PropsClient
import Verif.PropsNetwork
import Verif.PropsTls
import Verif.Wire
import Verif.WireLemmas
import Verif.PropsReplies
import Verif.PropsWire
import Verif.PropsChunks
import Verif.PropsChunks2
import Verif.Res
import Verif.ResLemmas
import Verif.ResRules
import Verif.ResRules2
import Verif.ResRules3
import Verif.ResRules4
import Verif.ResRules5
import Verif.PropsRes
import Verif.ResReq
import Verif.ResReqRules
import Verif.ResReqRules2
import Verif.ResReqRules3
import Verif.PropsResReq
import Verif.Main
import Verif.MainLemmas
import Verif.PropsMain
import Verif.MainOwns
import Verif.MainDemo
import Verif.MainRuns
import Verif.PropsMain2
import Verif.PropsMain3
import Verif.Deploy
import Verif.PledgeFull
import Verif.DeployLemmas
import Verif.PropsDeploy
import Verif.PropsDeploy2
import Verif.X509
import Verif.PropsX509
import Verif.PropsX509b
import Verif.PropsX509c
import Verif.PropsX509d
import Verif.Ranges
import Verif.PropsRanges
import Verif.Conn
import Verif.PropsConn
import Verif.ResPledge
import Verif.ResPledgeRules
import Verif.PropsResPledge
import Verif.Ports
import Verif.PropsPorts
import Verif.Pool
import Verif.PropsPool
import Verif.JsmnCut
import Verif.JsonCut
import Verif.Sign
import Verif.PropsSign
import Verif.JsonTail
import Verif.PropsTail
import Verif.PropsTight
import Verif.LogFile
import Verif.PropsLogFile
import Verif.PropsRefine
import Verif.Alias
import Verif.PropsAlias
import Verif.PropsTimeExact
import Verif.PropsLeak
import Verif.Cases
import Verif.Parallel
import Verif.ParallelLemmas
import Verif.PropsParallel
import Verif.PropsEnrolLog
import Verif.PropsMissing
import Verif.PropsHistory
import Verif.Cut
import Verif.CutLemmas
import Verif.CutSim
import Verif.PropsCut
import Verif.CutConn
import Verif.CutConnLemmas
import Verif.PropsCutConn
import Verif.CutForm
import Verif.PropsCutForm
import Verif.PropsBase64Exact
import Verif.PropsExpiry
import Verif.Throw
import Verif.PropsThrow
import Verif.PoolMasa
import Verif.PropsPoolMasa
import Verif.PropsStatus
import Verif.Records
import Verif.PropsRecords
import Verif.Socket
import Verif.PropsSocket
import Verif.Client
import Verif.PropsResend
import Verif.PropsFair
import Verif.Connect
import Verif.PropsConnect
import Verif.PropsExact
import Verif.Send
import Verif.PropsSend
import Verif.Stop
import Verif.PropsStop
import Verif.Session
import Verif.PropsSession
import Verif.PropsExact2
import Verif.PropsHandled
import Verif.Scan
import Verif.PropsScan
import Verif.PropsQuery
import Verif.HostName
import Verif.PropsHostName
import Verif.Form
import Verif.FormLemmas
import Verif.FormSim
import Verif.FormReads
import Verif.PropsForm
import Verif.Reading
import Verif.PropsReading
import Verif.Pause
import Verif.PropsPause
import Verif.PropsForm2
import Verif.PropsAmbiguous
import Verif.PropsKept
import Verif.PropsInterim
import Verif.PropsKept2
import Verif.PropsEntries
import Verif.PropsTight2
import Verif.LogStub
import Verif.PropsLogStub
import Verif.PropsTight3
import Verif.Addr
import Verif.PropsAddr
import Verif.PropsRevoked
import Verif.PropsYang
import Verif.PropsBound
import Verif.PropsTight4
import Verif.PropsIssuer
