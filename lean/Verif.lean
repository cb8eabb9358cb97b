import Verif.Model.BuilderJson
import Verif.Model.Cache
import Verif.Model.ClusterService
import Verif.Model.Core
import Verif.Model.Counter
import Verif.Model.Defense
import Verif.Model.Json
import Verif.Model.MCaptcha
import Verif.Model.Master
import Verif.Model.OpenSystem
import Verif.Model.Pow
import Verif.Model.Queue
import Verif.Model.QueueDrop
import Verif.Model.QueueFine
import Verif.Model.Redis
import Verif.Model.RedisCluster
import Verif.Model.RedisDirect
import Verif.Model.RedisNet
import Verif.Model.RedisOpen
import Verif.Model.RedisService
import Verif.Model.Service
import Verif.Model.System
import Verif.Model.Wire
import Verif.Proofs.AMap
import Verif.Proofs.Cache
import Verif.Proofs.ClusterService
import Verif.Proofs.Contract
import Verif.Proofs.Counter
import Verif.Proofs.CounterRun
import Verif.Proofs.Defense
import Verif.Proofs.Json
import Verif.Proofs.JsonSound
import Verif.Proofs.JsonText
import Verif.Proofs.ListAux
import Verif.Proofs.MCaptcha
import Verif.Proofs.Master
import Verif.Proofs.MasterBackup
import Verif.Proofs.MasterCalm
import Verif.Proofs.MasterFresh
import Verif.Proofs.MasterGc
import Verif.Proofs.MasterIso
import Verif.Proofs.MasterMoments
import Verif.Proofs.MasterRace
import Verif.Proofs.MasterRestore
import Verif.Proofs.MasterSeen
import Verif.Proofs.OpenLive
import Verif.Proofs.OpenSystem
import Verif.Proofs.Pow
import Verif.Proofs.Queue
import Verif.Proofs.QueueAbort
import Verif.Proofs.QueueFine
import Verif.Proofs.QueueFineRel
import Verif.Proofs.QueueFlood
import Verif.Proofs.QueueHealth
import Verif.Proofs.QueueLive
import Verif.Proofs.QueueProps
import Verif.Proofs.QueueRun
import Verif.Proofs.QueueStop
import Verif.Proofs.QueueTurns
import Verif.Proofs.Redis
import Verif.Proofs.RedisActors
import Verif.Proofs.RedisAsks
import Verif.Proofs.RedisCalm
import Verif.Proofs.RedisCluster
import Verif.Proofs.RedisLive
import Verif.Proofs.RedisLost
import Verif.Proofs.RedisModule
import Verif.Proofs.RedisNet
import Verif.Proofs.RedisOnce
import Verif.Proofs.RedisReplies
import Verif.Proofs.RedisService
import Verif.Proofs.RedisSettle
import Verif.Proofs.RedisText
import Verif.Proofs.RedisTimed
import Verif.Proofs.Rotation
import Verif.Proofs.ServiceCount
import Verif.Proofs.ServiceCounter
import Verif.Proofs.ServiceLife
import Verif.Proofs.ServiceLink
import Verif.Proofs.ServiceRun
import Verif.Proofs.ServiceSettle
import Verif.Proofs.ServiceStop
import Verif.Proofs.ServiceTasks
import Verif.Proofs.System
import Verif.Proofs.SystemAbort
import Verif.Proofs.SystemAddr
import Verif.Proofs.SystemAnswer
import Verif.Proofs.SystemAsk
import Verif.Proofs.SystemBack
import Verif.Proofs.SystemCount
import Verif.Proofs.SystemDrop
import Verif.Proofs.SystemEnds
import Verif.Proofs.SystemFull
import Verif.Proofs.SystemHonest
import Verif.Proofs.SystemInv
import Verif.Proofs.SystemJobs
import Verif.Proofs.SystemOnce
import Verif.Proofs.SystemQuiet
import Verif.Proofs.SystemRel
import Verif.Proofs.SystemStores
import Verif.Proofs.SystemStuck
import Verif.Proofs.SystemThread
import Verif.Props.AnyCaptcha
import Verif.Props.Backup
import Verif.Props.BuilderJson
import Verif.Props.Burst
import Verif.Props.Cache
import Verif.Props.CacheMemory
import Verif.Props.ClusterService
import Verif.Props.Contract
import Verif.Props.Counter
import Verif.Props.Defense
import Verif.Props.Json
import Verif.Props.MCaptcha
import Verif.Props.Master
import Verif.Props.MasterMoments
import Verif.Props.MasterMore
import Verif.Props.MasterRace
import Verif.Props.OpenFull
import Verif.Props.OpenLive
import Verif.Props.OpenSystem
import Verif.Props.Payment
import Verif.Props.Peak
import Verif.Props.Pow
import Verif.Props.Queue
import Verif.Props.QueueDrop
import Verif.Props.QueueFine
import Verif.Props.QueueLive
import Verif.Props.Redis
import Verif.Props.RedisCluster
import Verif.Props.RedisDirect
import Verif.Props.RedisHonest
import Verif.Props.RedisLive
import Verif.Props.RedisLost
import Verif.Props.RedisNet
import Verif.Props.RedisOpen
import Verif.Props.RedisOpenExact
import Verif.Props.RedisPayment
import Verif.Props.RedisReply
import Verif.Props.RedisService
import Verif.Props.RedisTimed
import Verif.Props.Service
import Verif.Props.ServiceStop
import Verif.Props.System
import Verif.Props.SystemDrop
import Verif.Props.SystemFull
import Verif.Props.SystemLive
import Verif.Props.SystemThread
import Verif.Props.Wire
import Verif.Props.WireRead
import Verif.Spec.Backup
import Verif.Spec.BuilderJson
import Verif.Spec.Burst
import Verif.Spec.Cache
import Verif.Spec.CacheMemory
import Verif.Spec.ClusterService
import Verif.Spec.Contract
import Verif.Spec.Counter
import Verif.Spec.Defense
import Verif.Spec.Json
import Verif.Spec.MCaptcha
import Verif.Spec.Master
import Verif.Spec.MasterMoments
import Verif.Spec.OpenLive
import Verif.Spec.OpenSystem
import Verif.Spec.Payment
import Verif.Spec.Pow
import Verif.Spec.Queue
import Verif.Spec.QueueDrop
import Verif.Spec.QueueFine
import Verif.Spec.Redis
import Verif.Spec.RedisCluster
import Verif.Spec.RedisDirect
import Verif.Spec.RedisHonest
import Verif.Spec.RedisLive
import Verif.Spec.RedisLost
import Verif.Spec.RedisNet
import Verif.Spec.RedisOpen
import Verif.Spec.RedisPayment
import Verif.Spec.RedisService
import Verif.Spec.RedisText
import Verif.Spec.RedisTimed
import Verif.Spec.Service
import Verif.Spec.ServiceStop
import Verif.Spec.System
import Verif.Spec.SystemDrop
import Verif.Spec.SystemFull
import Verif.Spec.Wire
import Verif.Tests.Repo
