import Verif.Model.AdaptRun
import Verif.Model.Align
import Verif.Model.AudioRead
import Verif.Model.BatTable
import Verif.Model.Batch
import Verif.Model.BatchSig
import Verif.Model.BatchTI
import Verif.Model.Battery
import Verif.Model.BlockCost
import Verif.Model.Buffers
import Verif.Model.CentrRun
import Verif.Model.Clock
import Verif.Model.ClockTI
import Verif.Model.CohDrift
import Verif.Model.Compress
import Verif.Model.CondNum
import Verif.Model.Config
import Verif.Model.Danse
import Verif.Model.DanseCentr
import Verif.Model.DemoEval
import Verif.Model.DemoNet
import Verif.Model.Dft
import Verif.Model.Divisors
import Verif.Model.Dxcp
import Verif.Model.Evaluate
import Verif.Model.Events
import Verif.Model.Export
import Verif.Model.ExtFilters
import Verif.Model.Frames
import Verif.Model.Fused
import Verif.Model.FwSnr
import Verif.Model.GenOffset
import Verif.Model.GivenRun
import Verif.Model.InitBatch
import Verif.Model.Instants
import Verif.Model.KeyWindow
import Verif.Model.Layout
import Verif.Model.Metrics
import Verif.Model.Mwf
import Verif.Model.NetClock
import Verif.Model.NetFilts
import Verif.Model.NoiseSensors
import Verif.Model.OracleAcs
import Verif.Model.Params
import Verif.Model.Pipeline
import Verif.Model.Prealloc
import Verif.Model.Prune
import Verif.Model.Py
import Verif.Model.RandPauses
import Verif.Model.RandomRir
import Verif.Model.Scenario
import Verif.Model.Scm
import Verif.Model.SiSnr
import Verif.Model.SigTools
import Verif.Model.SnrOld
import Verif.Model.Sro
import Verif.Model.Stoi
import Verif.Model.TI
import Verif.Model.TIDanse
import Verif.Model.TIRun
import Verif.Model.ThirdOct
import Verif.Model.Topo
import Verif.Model.Tree
import Verif.Model.Vad
import Verif.Model.Yaml
import Verif.Proofs.Async
import Verif.Proofs.Async2
import Verif.Proofs.AudioRead
import Verif.Proofs.BatTable
import Verif.Proofs.Batch
import Verif.Proofs.Batch2
import Verif.Proofs.Batch3
import Verif.Proofs.Batch4
import Verif.Proofs.BatchSig
import Verif.Proofs.BatchSig2
import Verif.Proofs.BatchSig3
import Verif.Proofs.BatchTI
import Verif.Proofs.Battery
import Verif.Proofs.Buffers
import Verif.Proofs.Buffers2
import Verif.Proofs.Centr
import Verif.Proofs.Centr2
import Verif.Proofs.Centr3
import Verif.Proofs.Centr4
import Verif.Proofs.Centr5
import Verif.Proofs.Centr6
import Verif.Proofs.Centr7
import Verif.Proofs.Centr8
import Verif.Proofs.Centr9
import Verif.Proofs.Clock
import Verif.Proofs.CohDrift
import Verif.Proofs.CohDrift2
import Verif.Proofs.Compress
import Verif.Proofs.Compress2
import Verif.Proofs.Config
import Verif.Proofs.Config2
import Verif.Proofs.Config3
import Verif.Proofs.Cost
import Verif.Proofs.Cost2
import Verif.Proofs.Danse
import Verif.Proofs.Danse2
import Verif.Proofs.Danse3
import Verif.Proofs.Danse4
import Verif.Proofs.DanseCentr
import Verif.Proofs.DanseCentr2
import Verif.Proofs.DanseCentr3
import Verif.Proofs.DanseCentr4
import Verif.Proofs.DanseCentr5
import Verif.Proofs.DanseCentr6
import Verif.Proofs.DanseCentr7
import Verif.Proofs.DanseCentr8
import Verif.Proofs.DanseCentr9
import Verif.Proofs.Dead
import Verif.Proofs.Dead2
import Verif.Proofs.DeadTI
import Verif.Proofs.DeadTI2
import Verif.Proofs.DemoNet
import Verif.Proofs.DemoNet2
import Verif.Proofs.DemoNet3
import Verif.Proofs.Dft
import Verif.Proofs.Divisors
import Verif.Proofs.Dxcp
import Verif.Proofs.Dxcp2
import Verif.Proofs.Dxcp3
import Verif.Proofs.Dxcp4
import Verif.Proofs.Dxcp5
import Verif.Proofs.Dxcp6
import Verif.Proofs.Dxcp7
import Verif.Proofs.Evaluate
import Verif.Proofs.Events
import Verif.Proofs.Events2
import Verif.Proofs.Events3
import Verif.Proofs.Events4
import Verif.Proofs.ExtFilters
import Verif.Proofs.Fused
import Verif.Proofs.FwSnr
import Verif.Proofs.Gain
import Verif.Proofs.Gain2
import Verif.Proofs.Gain3
import Verif.Proofs.GainTI
import Verif.Proofs.GenOffset
import Verif.Proofs.Given
import Verif.Proofs.Given2
import Verif.Proofs.Given3
import Verif.Proofs.Instants
import Verif.Proofs.Isolated
import Verif.Proofs.KeyWindow
import Verif.Proofs.Layout
import Verif.Proofs.Layout2
import Verif.Proofs.Layout3
import Verif.Proofs.Metrics
import Verif.Proofs.Mwf
import Verif.Proofs.Mwf2
import Verif.Proofs.NetFilts
import Verif.Proofs.NoAdapt
import Verif.Proofs.Online
import Verif.Proofs.Online2
import Verif.Proofs.Online3
import Verif.Proofs.Online4
import Verif.Proofs.Online5
import Verif.Proofs.Online6
import Verif.Proofs.Online7
import Verif.Proofs.Online8
import Verif.Proofs.Online9
import Verif.Proofs.Order
import Verif.Proofs.Order2
import Verif.Proofs.Order3
import Verif.Proofs.OrderTI
import Verif.Proofs.OrderTI2
import Verif.Proofs.Params
import Verif.Proofs.Params2
import Verif.Proofs.Pipeline
import Verif.Proofs.PipelineTI
import Verif.Proofs.Prealloc
import Verif.Proofs.Prune
import Verif.Proofs.Prune2
import Verif.Proofs.Py
import Verif.Proofs.Scale
import Verif.Proofs.Scale2
import Verif.Proofs.Scale3
import Verif.Proofs.ScaleTI
import Verif.Proofs.Sched
import Verif.Proofs.Sched2
import Verif.Proofs.Sched3
import Verif.Proofs.Sched4
import Verif.Proofs.Scm
import Verif.Proofs.Scm2
import Verif.Proofs.Seq
import Verif.Proofs.SiSnr
import Verif.Proofs.Single
import Verif.Proofs.Single2
import Verif.Proofs.Sro
import Verif.Proofs.Sro2
import Verif.Proofs.Sro3
import Verif.Proofs.Sro4
import Verif.Proofs.Sro5
import Verif.Proofs.Sro6
import Verif.Proofs.Stoi
import Verif.Proofs.Stoi2
import Verif.Proofs.Stoi3
import Verif.Proofs.Sync
import Verif.Proofs.Sync2
import Verif.Proofs.TI
import Verif.Proofs.TIDanse
import Verif.Proofs.TIDanse2
import Verif.Proofs.TIDanse3
import Verif.Proofs.TIGiven
import Verif.Proofs.TIGiven2
import Verif.Proofs.TIGiven3
import Verif.Proofs.TIRun
import Verif.Proofs.TIRun10
import Verif.Proofs.TIRun11
import Verif.Proofs.TIRun12
import Verif.Proofs.TIRun13
import Verif.Proofs.TIRun14
import Verif.Proofs.TIRun15
import Verif.Proofs.TIRun16
import Verif.Proofs.TIRun17
import Verif.Proofs.TIRun18
import Verif.Proofs.TIRun19
import Verif.Proofs.TIRun2
import Verif.Proofs.TIRun3
import Verif.Proofs.TIRun4
import Verif.Proofs.TIRun5
import Verif.Proofs.TIRun6
import Verif.Proofs.TIRun7
import Verif.Proofs.TIRun8
import Verif.Proofs.TIRun9
import Verif.Proofs.ThirdOct
import Verif.Proofs.Topo
import Verif.Proofs.Total
import Verif.Proofs.Total2
import Verif.Proofs.Total3
import Verif.Proofs.Total4
import Verif.Proofs.Total5
import Verif.Proofs.Total6
import Verif.Proofs.Total7
import Verif.Proofs.Tree
import Verif.Proofs.Vad
import Verif.Proofs.Yaml
import Verif.Props.Align
import Verif.Props.Async
import Verif.Props.AudioRead
import Verif.Props.BatTable
import Verif.Props.Batch
import Verif.Props.BatchSig
import Verif.Props.BatchSig2
import Verif.Props.BatchTI
import Verif.Props.Battery
import Verif.Props.BlockCost
import Verif.Props.Buffers
import Verif.Props.Centr
import Verif.Props.Centr2
import Verif.Props.Centr3
import Verif.Props.Clock
import Verif.Props.CohDrift
import Verif.Props.CondNum
import Verif.Props.Config
import Verif.Props.Config2
import Verif.Props.Cost
import Verif.Props.CostEx
import Verif.Props.Danse
import Verif.Props.Danse2
import Verif.Props.DanseCentr
import Verif.Props.DanseCentr2
import Verif.Props.DanseCentrEx
import Verif.Props.Dead
import Verif.Props.DeadTI
import Verif.Props.DemoEval
import Verif.Props.DemoNet
import Verif.Props.Dxcp
import Verif.Props.Dxcp2
import Verif.Props.Dxcp3
import Verif.Props.Evaluate
import Verif.Props.Evaluate2
import Verif.Props.Events
import Verif.Props.Export
import Verif.Props.ExtFilters
import Verif.Props.Frames
import Verif.Props.Fused
import Verif.Props.FwSnr
import Verif.Props.Gain
import Verif.Props.GainTI
import Verif.Props.GenOffset
import Verif.Props.Given
import Verif.Props.InitBatch
import Verif.Props.Instants
import Verif.Props.Isolated
import Verif.Props.KeyWindow
import Verif.Props.Layout
import Verif.Props.Layout2
import Verif.Props.Metrics
import Verif.Props.Mwf
import Verif.Props.NetClock
import Verif.Props.NetFilts
import Verif.Props.NoAdapt
import Verif.Props.NoiseSensors
import Verif.Props.Online
import Verif.Props.Online2
import Verif.Props.OracleAcs
import Verif.Props.Order
import Verif.Props.OrderTI
import Verif.Props.Params
import Verif.Props.Pipeline
import Verif.Props.PipelineTI
import Verif.Props.Prealloc
import Verif.Props.Prune
import Verif.Props.RandPauses
import Verif.Props.RandomRir
import Verif.Props.RemoveTI
import Verif.Props.Scale
import Verif.Props.ScaleTI
import Verif.Props.Scenario
import Verif.Props.Sched
import Verif.Props.Scm
import Verif.Props.SiSnr
import Verif.Props.SigTools
import Verif.Props.Signals
import Verif.Props.Single
import Verif.Props.SingleEff
import Verif.Props.SnrOld
import Verif.Props.Sro
import Verif.Props.Sro2
import Verif.Props.Sro3
import Verif.Props.Stoi
import Verif.Props.Stoi2
import Verif.Props.TIDanse
import Verif.Props.TIDanse2
import Verif.Props.TIEff
import Verif.Props.TIEff2
import Verif.Props.TIGiven
import Verif.Props.TIHear
import Verif.Props.TIRun
import Verif.Props.TISched
import Verif.Props.TITotal
import Verif.Props.ThirdOct
import Verif.Props.Topo
import Verif.Props.Total
import Verif.Props.Total2
import Verif.Props.Total3
import Verif.Props.Total3Ex
import Verif.Props.Tree
import Verif.Props.Vad
import Verif.Props.Yaml
import Verif.Spec.Async
import Verif.Spec.AudioRead
import Verif.Spec.BatTable
import Verif.Spec.Batch
import Verif.Spec.BatchSig
import Verif.Spec.BatchTI
import Verif.Spec.Battery
import Verif.Spec.BlockCost
import Verif.Spec.Buffers
import Verif.Spec.CentrRun
import Verif.Spec.Clock
import Verif.Spec.CohDrift
import Verif.Spec.Config
import Verif.Spec.Cost
import Verif.Spec.Danse
import Verif.Spec.DanseCentr
import Verif.Spec.Dead
import Verif.Spec.DemoNet
import Verif.Spec.Dxcp
import Verif.Spec.Evaluate
import Verif.Spec.Events
import Verif.Spec.Export
import Verif.Spec.ExtFilters
import Verif.Spec.FwSnr
import Verif.Spec.Gain
import Verif.Spec.GenOffset
import Verif.Spec.Given
import Verif.Spec.Instants
import Verif.Spec.KeyWindow
import Verif.Spec.Layout
import Verif.Spec.Mwf
import Verif.Spec.NetClock
import Verif.Spec.NetFilts
import Verif.Spec.NoAdapt
import Verif.Spec.Online
import Verif.Spec.Order
import Verif.Spec.OrderTI
import Verif.Spec.Pipeline
import Verif.Spec.Prealloc
import Verif.Spec.Prune
import Verif.Spec.RandPauses
import Verif.Spec.Scale
import Verif.Spec.ScaleTI
import Verif.Spec.Scm
import Verif.Spec.SiSnr
import Verif.Spec.Signals
import Verif.Spec.Single
import Verif.Spec.SnrOld
import Verif.Spec.Sro
import Verif.Spec.Stoi
import Verif.Spec.TIDanse
import Verif.Spec.TIEff
import Verif.Spec.TIGiven
import Verif.Spec.TIIdle
import Verif.Spec.TIRemove
import Verif.Spec.TIRun
import Verif.Spec.ThirdOct
import Verif.Spec.Topo
import Verif.Spec.Tree
import Verif.Spec.Vad
import Verif.Spec.Yaml
