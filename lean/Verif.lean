import Verif.Go.Basic
import Verif.Go.Body
import Verif.Go.Conc
import Verif.Go.Digits
import Verif.Go.Duration
import Verif.Go.F64
import Verif.Go.Float
import Verif.Go.Fmt
import Verif.Go.Json
import Verif.Go.Machine
import Verif.Go.Memory
import Verif.Go.Quote
import Verif.Go.RWMutex
import Verif.Go.Time
import Verif.Go.Utf8
import Verif.Lemmas.Accuracy
import Verif.Lemmas.AccuracyPct
import Verif.Lemmas.ArbiterConc
import Verif.Lemmas.AtomicConc
import Verif.Lemmas.Body
import Verif.Lemmas.Burst
import Verif.Lemmas.ByteOrder
import Verif.Lemmas.CaptureConc
import Verif.Lemmas.Conc
import Verif.Lemmas.Cost
import Verif.Lemmas.Estimate
import Verif.Lemmas.Ewma
import Verif.Lemmas.EwmaConc
import Verif.Lemmas.EwmaDrift
import Verif.Lemmas.Exact
import Verif.Lemmas.ExpDecay
import Verif.Lemmas.ExpKeys
import Verif.Lemmas.Export
import Verif.Lemmas.ExportBlocks
import Verif.Lemmas.ExportConc
import Verif.Lemmas.ExportReturns
import Verif.Lemmas.Expvar
import Verif.Lemmas.ExpvarConc
import Verif.Lemmas.ExpvarText
import Verif.Lemmas.F64
import Verif.Lemmas.F64More
import Verif.Lemmas.GetAll
import Verif.Lemmas.GetAllConc
import Verif.Lemmas.HealthConc
import Verif.Lemmas.Heap
import Verif.Lemmas.Independence
import Verif.Lemmas.JsonRead
import Verif.Lemmas.Leak
import Verif.Lemmas.Ledger
import Verif.Lemmas.Librato
import Verif.Lemmas.LibratoClient
import Verif.Lemmas.LibratoConc
import Verif.Lemmas.LibratoText
import Verif.Lemmas.Locks
import Verif.Lemmas.Machine
import Verif.Lemmas.MeanRate
import Verif.Lemmas.Memory
import Verif.Lemmas.Meter
import Verif.Lemmas.MeterConc
import Verif.Lemmas.Net
import Verif.Lemmas.NilProgram
import Verif.Lemmas.Observer
import Verif.Lemmas.Ordered
import Verif.Lemmas.PercentNames
import Verif.Lemmas.Percentile
import Verif.Lemmas.Program
import Verif.Lemmas.RWMutex
import Verif.Lemmas.Race
import Verif.Lemmas.Recency
import Verif.Lemmas.Recorded
import Verif.Lemmas.Registry
import Verif.Lemmas.RegistryConc
import Verif.Lemmas.RegistryProgram
import Verif.Lemmas.Renumber
import Verif.Lemmas.Report
import Verif.Lemmas.Reservoir
import Verif.Lemmas.Round
import Verif.Lemmas.RoundEval
import Verif.Lemmas.Runtime
import Verif.Lemmas.SampleConc
import Verif.Lemmas.Scale
import Verif.Lemmas.Shards
import Verif.Lemmas.SnapshotConc
import Verif.Lemmas.Space
import Verif.Lemmas.Stale
import Verif.Lemmas.StatHat
import Verif.Lemmas.StatNames
import Verif.Lemmas.Stats
import Verif.Lemmas.TickLoop
import Verif.Lemmas.TimeShift
import Verif.Lemmas.TimerConc
import Verif.Lemmas.Together
import Verif.Lemmas.Uniform
import Verif.Lemmas.Units
import Verif.Lemmas.UseConc
import Verif.Lemmas.Utf8
import Verif.Lemmas.WaitFree
import Verif.Lemmas.Wire
import Verif.Lemmas.WireExport
import Verif.Lemmas.World
import Verif.Lemmas.WorldEffect
import Verif.Lemmas.WorldFrame
import Verif.Lemmas.WorldHist
import Verif.Lemmas.WorldProgram
import Verif.Lemmas.WorldRead
import Verif.Lemmas.WorldReg
import Verif.Lemmas.WorldSafe
import Verif.Lemmas.WorldSim
import Verif.Lemmas.WorldSnap
import Verif.Lemmas.WorldTimer
import Verif.Model.ArbiterConc
import Verif.Model.AtomicConc
import Verif.Model.CaptureConc
import Verif.Model.Cost
import Verif.Model.Counter
import Verif.Model.Ewma
import Verif.Model.ExpDecay
import Verif.Model.Export
import Verif.Model.ExportConc
import Verif.Model.Expvar
import Verif.Model.ExpvarConc
import Verif.Model.ExpvarText
import Verif.Model.Gauge
import Verif.Model.GetAll
import Verif.Model.GetAllConc
import Verif.Model.HealthConc
import Verif.Model.Healthcheck
import Verif.Model.Heap
import Verif.Model.Json
import Verif.Model.Layout
import Verif.Model.Librato
import Verif.Model.LibratoClient
import Verif.Model.LibratoConc
import Verif.Model.LibratoText
import Verif.Model.Locks
import Verif.Model.Memory
import Verif.Model.Meter
import Verif.Model.Net
import Verif.Model.Registry
import Verif.Model.RegistryConc
import Verif.Model.Runtime
import Verif.Model.SampleConc
import Verif.Model.SnapshotConc
import Verif.Model.StatHat
import Verif.Model.Stats
import Verif.Model.TickLoop
import Verif.Model.TimerConc
import Verif.Model.Uniform
import Verif.Model.Units
import Verif.Model.UseConc
import Verif.Model.World
import Verif.Props.Accuracy
import Verif.Props.Alignment
import Verif.Props.Alive
import Verif.Props.ArbiterConc
import Verif.Props.Burst
import Verif.Props.CaptureConc
import Verif.Props.Clear
import Verif.Props.Clock
import Verif.Props.Cost
import Verif.Props.DataRace
import Verif.Props.Drift
import Verif.Props.Estimate
import Verif.Props.Ewma
import Verif.Props.Export
import Verif.Props.ExportConc
import Verif.Props.Expvar
import Verif.Props.ExpvarConc
import Verif.Props.ExpvarHandlers
import Verif.Props.ExpvarNames
import Verif.Props.ExpvarStale
import Verif.Props.ExpvarText
import Verif.Props.Forget
import Verif.Props.GetAll
import Verif.Props.GetAllConc
import Verif.Props.HealthConc
import Verif.Props.Hist
import Verif.Props.Independence
import Verif.Props.Json
import Verif.Props.JsonRead
import Verif.Props.Leak
import Verif.Props.Ledger
import Verif.Props.Librato
import Verif.Props.LibratoClient
import Verif.Props.LibratoConc
import Verif.Props.LibratoMean
import Verif.Props.LibratoNames
import Verif.Props.LibratoText
import Verif.Props.Locks
import Verif.Props.Meter
import Verif.Props.MeterConc
import Verif.Props.Net
import Verif.Props.NilProgram
import Verif.Props.Observer
import Verif.Props.Ordered
import Verif.Props.OrderedGetAll
import Verif.Props.OrderedLive
import Verif.Props.PercentNames
import Verif.Props.Program
import Verif.Props.Recency
import Verif.Props.Recorded
import Verif.Props.Registry
import Verif.Props.RegistryConc
import Verif.Props.RegistryProgram
import Verif.Props.Report
import Verif.Props.Returns
import Verif.Props.Runtime
import Verif.Props.Sample
import Verif.Props.SampleConc
import Verif.Props.Scale
import Verif.Props.Shards
import Verif.Props.Simple
import Verif.Props.Snapshot
import Verif.Props.SnapshotConc
import Verif.Props.Space
import Verif.Props.StatHat
import Verif.Props.StatNames
import Verif.Props.Stats
import Verif.Props.Stuck
import Verif.Props.TickLoop
import Verif.Props.TimeShift
import Verif.Props.TimerConc
import Verif.Props.Together
import Verif.Props.Units
import Verif.Props.UseConc
import Verif.Props.WaitFree
import Verif.Props.WallClock
import Verif.Props.Wire
import Verif.Spec.Accuracy
import Verif.Spec.Alive
import Verif.Spec.ArbiterConc
import Verif.Spec.Basic
import Verif.Spec.Body
import Verif.Spec.Burst
import Verif.Spec.CaptureConc
import Verif.Spec.Clear
import Verif.Spec.Cost
import Verif.Spec.Estimate
import Verif.Spec.Ewma
import Verif.Spec.Export
import Verif.Spec.ExportConc
import Verif.Spec.Expvar
import Verif.Spec.ExpvarConc
import Verif.Spec.ExpvarHandlers
import Verif.Spec.ExpvarStale
import Verif.Spec.ExpvarText
import Verif.Spec.Forget
import Verif.Spec.GetAllConc
import Verif.Spec.HealthConc
import Verif.Spec.Independence
import Verif.Spec.Json
import Verif.Spec.JsonDoc
import Verif.Spec.JsonRead
import Verif.Spec.Leak
import Verif.Spec.Ledger
import Verif.Spec.Librato
import Verif.Spec.LibratoConc
import Verif.Spec.LibratoMean
import Verif.Spec.LibratoNames
import Verif.Spec.LibratoText
import Verif.Spec.Locks
import Verif.Spec.Meter
import Verif.Spec.MeterConc
import Verif.Spec.Net
import Verif.Spec.NilProgram
import Verif.Spec.Observer
import Verif.Spec.Ordered
import Verif.Spec.PercentNames
import Verif.Spec.Program
import Verif.Spec.Race
import Verif.Spec.Recency
import Verif.Spec.Recorded
import Verif.Spec.Registry
import Verif.Spec.RegistryConc
import Verif.Spec.RegistryProgram
import Verif.Spec.Report
import Verif.Spec.Runtime
import Verif.Spec.Sample
import Verif.Spec.SampleConc
import Verif.Spec.Scale
import Verif.Spec.Shards
import Verif.Spec.SnapshotConc
import Verif.Spec.Space
import Verif.Spec.StatHat
import Verif.Spec.StatNames
import Verif.Spec.Stats
import Verif.Spec.TickLoop
import Verif.Spec.TimeShift
import Verif.Spec.TimerConc
import Verif.Spec.Together
import Verif.Spec.Units
import Verif.Spec.UseConc
import Verif.Spec.WaitFree
import Verif.Spec.WallClock
import Verif.Spec.Wire
import Verif.Spec.World
import Verif.Spec.WorldProgram
