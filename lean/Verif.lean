import Verif.Model.Basic
import Verif.Model.Buffer
import Verif.Model.BufferHeap
import Verif.Model.Clust
import Verif.Model.Conf
import Verif.Model.Copy
import Verif.Model.CopyLive
import Verif.Model.Ctrl
import Verif.Model.CtrlAccess
import Verif.Model.CtrlConf
import Verif.Model.CtrlPanic
import Verif.Model.CtrlTime
import Verif.Model.CtrlUser
import Verif.Model.Dtw
import Verif.Model.DtwKMeans
import Verif.Model.Euclid
import Verif.Model.EuclidHeap
import Verif.Model.Figures
import Verif.Model.Finish
import Verif.Model.Gens
import Verif.Model.Ieee
import Verif.Model.InitFull
import Verif.Model.InitPanic
import Verif.Model.KMeans
import Verif.Model.LateDistrib
import Verif.Model.Mcmc
import Verif.Model.McmcPanic
import Verif.Model.MultivT
import Verif.Model.Names
import Verif.Model.Par
import Verif.Model.ParCap
import Verif.Model.ParPanic
import Verif.Model.RealMath
import Verif.Model.Rounding
import Verif.Model.Share
import Verif.Model.StreamCopy
import Verif.Model.StreamHeap
import Verif.Model.StreamPanic
import Verif.Model.Streaming
import Verif.Model.Template
import Verif.Model.Typed
import Verif.Model.XReal
import Verif.Proof.Buffer
import Verif.Proof.BufferHeap
import Verif.Proof.Closed
import Verif.Proof.CtrlAccess
import Verif.Proof.CtrlAgain
import Verif.Proof.CtrlBal
import Verif.Proof.CtrlBase
import Verif.Proof.CtrlBatch
import Verif.Proof.CtrlBatchProg
import Verif.Proof.CtrlBatchRun
import Verif.Proof.CtrlBlame
import Verif.Proof.CtrlBlock
import Verif.Proof.CtrlBuffered
import Verif.Proof.CtrlConf
import Verif.Proof.CtrlCount
import Verif.Proof.CtrlEdge
import Verif.Proof.CtrlFair
import Verif.Proof.CtrlHistory
import Verif.Proof.CtrlIter
import Verif.Proof.CtrlLive
import Verif.Proof.CtrlLock
import Verif.Proof.CtrlLog
import Verif.Proof.CtrlPanic
import Verif.Proof.CtrlPc
import Verif.Proof.CtrlPlan
import Verif.Proof.CtrlRace
import Verif.Proof.CtrlRun
import Verif.Proof.CtrlSerial
import Verif.Proof.CtrlSource
import Verif.Proof.CtrlStatus
import Verif.Proof.CtrlStep
import Verif.Proof.CtrlStream
import Verif.Proof.CtrlTell
import Verif.Proof.CtrlTidy
import Verif.Proof.CtrlTimer
import Verif.Proof.CtrlUse
import Verif.Proof.CtrlUseProg
import Verif.Proof.CtrlUseStep
import Verif.Proof.CtrlUser
import Verif.Proof.Dba
import Verif.Proof.Dtw
import Verif.Proof.DtwKMeans
import Verif.Proof.DtwMetric
import Verif.Proof.DtwNan
import Verif.Proof.DtwRound
import Verif.Proof.Euclid
import Verif.Proof.FigOps
import Verif.Proof.Figures
import Verif.Proof.FlChoice
import Verif.Proof.FlCos
import Verif.Proof.FlEuclid
import Verif.Proof.FlLoss
import Verif.Proof.FlMean
import Verif.Proof.Gens
import Verif.Proof.Hom
import Verif.Proof.Ieee
import Verif.Proof.Infinite
import Verif.Proof.InfiniteXReal
import Verif.Proof.InitPanic
import Verif.Proof.Interp
import Verif.Proof.KMeans
import Verif.Proof.KMeansConv
import Verif.Proof.Loss
import Verif.Proof.Mcmc
import Verif.Proof.McmcInf
import Verif.Proof.McmcPanic
import Verif.Proof.McmcStuck
import Verif.Proof.Nan
import Verif.Proof.Nearest
import Verif.Proof.Par
import Verif.Proof.ParCap
import Verif.Proof.ParDba
import Verif.Proof.ParMapLabel
import Verif.Proof.ParPanic
import Verif.Proof.Rounding
import Verif.Proof.Seeding
import Verif.Proof.StreamHeap
import Verif.Proof.StreamMany
import Verif.Proof.StreamPanic
import Verif.Proof.Streaming
import Verif.Proof.StudentLaw
import Verif.Proof.XReal
import Verif.Props.Buffer
import Verif.Props.BufferHeap
import Verif.Props.Conf
import Verif.Props.Copy
import Verif.Props.CopyLive
import Verif.Props.CosNeg
import Verif.Props.Ctrl
import Verif.Props.CtrlAgain
import Verif.Props.CtrlBatch
import Verif.Props.CtrlBlock
import Verif.Props.CtrlConf
import Verif.Props.CtrlCount
import Verif.Props.CtrlErr
import Verif.Props.CtrlFair
import Verif.Props.CtrlKMeans
import Verif.Props.CtrlLate
import Verif.Props.CtrlLive
import Verif.Props.CtrlMcmc
import Verif.Props.CtrlPanic
import Verif.Props.CtrlPlan
import Verif.Props.CtrlRace
import Verif.Props.CtrlRun
import Verif.Props.CtrlSeq
import Verif.Props.CtrlSerial
import Verif.Props.CtrlSource
import Verif.Props.CtrlStream
import Verif.Props.CtrlTell
import Verif.Props.CtrlTime
import Verif.Props.CtrlTimer
import Verif.Props.CtrlTwice
import Verif.Props.CtrlUse
import Verif.Props.CtrlUser
import Verif.Props.CtrlWait
import Verif.Props.Dba
import Verif.Props.Dim
import Verif.Props.Draws
import Verif.Props.DrawsMcmc
import Verif.Props.DrawsRand
import Verif.Props.Dtw
import Verif.Props.DtwCombine
import Verif.Props.DtwKMeans
import Verif.Props.DtwMetric
import Verif.Props.DtwNan
import Verif.Props.DtwRound
import Verif.Props.Euclid
import Verif.Props.Figures
import Verif.Props.Finish
import Verif.Props.Fl
import Verif.Props.Fl64
import Verif.Props.FlChoice
import Verif.Props.FlCos
import Verif.Props.FlLoss
import Verif.Props.Gens
import Verif.Props.Ieee
import Verif.Props.InfChoice
import Verif.Props.Infinite
import Verif.Props.InitFull
import Verif.Props.InitPanic
import Verif.Props.KMeans
import Verif.Props.KMeansConv
import Verif.Props.KMeansCosine
import Verif.Props.KMeansInit
import Verif.Props.KMeansOpt
import Verif.Props.LateDistrib
import Verif.Props.Loss
import Verif.Props.Mcmc
import Verif.Props.McmcDirac
import Verif.Props.McmcInf
import Verif.Props.McmcPanic
import Verif.Props.McmcRatio
import Verif.Props.McmcStuck
import Verif.Props.MultivT
import Verif.Props.Names
import Verif.Props.Nan
import Verif.Props.Nearest
import Verif.Props.NullVec
import Verif.Props.Order
import Verif.Props.Par
import Verif.Props.ParCap
import Verif.Props.ParPanic
import Verif.Props.ProbaK
import Verif.Props.RepoTests
import Verif.Props.Seeding
import Verif.Props.Share
import Verif.Props.Similar
import Verif.Props.StreamCopy
import Verif.Props.StreamFl
import Verif.Props.StreamHeap
import Verif.Props.StreamLaw
import Verif.Props.StreamMany
import Verif.Props.StreamPanic
import Verif.Props.Streaming
import Verif.Props.StudentLaw
import Verif.Props.Typed
import Verif.Spec.Buffer
import Verif.Spec.Ctrl
import Verif.Spec.CtrlAgain
import Verif.Spec.CtrlBatch
import Verif.Spec.CtrlBlame
import Verif.Spec.CtrlBlock
import Verif.Spec.CtrlBuffered
import Verif.Spec.CtrlConf
import Verif.Spec.CtrlFair
import Verif.Spec.CtrlLive
import Verif.Spec.CtrlMcmc
import Verif.Spec.CtrlPlan
import Verif.Spec.CtrlRace
import Verif.Spec.CtrlRun
import Verif.Spec.CtrlSerial
import Verif.Spec.CtrlSource
import Verif.Spec.CtrlStream
import Verif.Spec.CtrlTell
import Verif.Spec.CtrlTidy
import Verif.Spec.CtrlTime
import Verif.Spec.CtrlTrace
import Verif.Spec.CtrlUse
import Verif.Spec.CtrlUser
import Verif.Spec.CtrlWait
import Verif.Spec.Draws
import Verif.Spec.DtwKMeans
import Verif.Spec.DtwMetric
import Verif.Spec.DtwNan
import Verif.Spec.DtwRound
import Verif.Spec.Example
import Verif.Spec.Figures
import Verif.Spec.Fl
import Verif.Spec.FlCos
import Verif.Spec.FlLoss
import Verif.Spec.Float
import Verif.Spec.Gens
import Verif.Spec.Ieee
import Verif.Spec.InfChoice
import Verif.Spec.Infinite
import Verif.Spec.Interp
import Verif.Spec.McmcInf
import Verif.Spec.McmcPanic
import Verif.Spec.McmcStuck
import Verif.Spec.Mean
import Verif.Spec.Nan
import Verif.Spec.Nearest
import Verif.Spec.Par
import Verif.Spec.ParCap
import Verif.Spec.ParPanic
import Verif.Spec.Seeding
import Verif.Spec.StreamCopy
import Verif.Spec.StreamLaw
import Verif.Spec.StreamMany
import Verif.Spec.StreamPanic
import Verif.Spec.Streaming
import Verif.Spec.StudentLaw
import Verif.Spec.Vec
import Verif.Spec.Warp
